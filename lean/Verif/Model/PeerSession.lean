import Verif.Model.Framing
import Verif.Model.Info

/-!
# Talking to a peer: the model of `InfoGetter`, `MessageChannel` and `PeerConnection` in `/repo/src/peer/mod.rs`

A connection is driven by its environment, the `Link`: whether connecting and the encryption handshake work, the
(decrypted) bytes the peer sends and what follows them, and the outcome of every send.  By `recvN_independent`
(`Props/Framing.lean`) the division of the bytes into reads is immaterial, so the bytes are given as a whole.  All
results and the whole conversation are recorded.
-/

namespace Demag

/-- Result of a step that talks to the peer: a value, an error, waiting for ever (which `timeout` turns into an error
while connecting), or a panic. -/
inductive Res (ε α : Type) where
  | ok (a : α)
  | err (e : ε)
  | hang
  | panic
  deriving DecidableEq

/-- Outcome of an action of the environment. -/
inductive IoOutcome where
  | ok
  | fail
  | hang
  deriving DecidableEq

/-- Outcome of the encryption handshake.  `overflow` is a panic: the end of the time for packet 2 cannot be expressed as a moment
(src/peer/msepe.rs:437; Model/SecureLink.lean). -/
inductive SecureOutcome where
  | ok
  | fail
  | hang
  | overflow
  deriving DecidableEq

/-- The environment of one connection.  `crypto` is the outcome of the encryption handshake, if one is made. -/
structure Link where
  connect : IoOutcome
  crypto : SecureOutcome
  incoming : Bytes
  ending : Ending
  sends : Nat → IoOutcome

/-- src/peer/mod.rs:430-480 `PeerError`, as far as raised by the functions modelled here.  `unexpected` carries the
message itself instead of its text. -/
inductive PeerError where
  | cantRequireCrypto
  | connect
  | connectTimeout
  | send
  | recv (s : Stop)
  | infoHashMismatch (expected got : InfoHash)
  | noBep10
  | noExtendedHandshake
  | noMetadataExt
  | disconnect
  | handshake (e : HandshakeError)
  | cryptoHandshake
  | message (e : MessageError)
  | registry (e : RegistryError Bep10Extension)
  | noMetadataSize
  | infoConstruct (e : ConstructError)
  | infoPush (e : PushError)
  | infoBuild (e : BuildError)
  | sizeMismatch (handshake data : BitVec 32)
  | wrongPiece (expected got : BitVec 32)
  | infoRequestRejected (piece : BitVec 32)
  | unexpected (m : Message)

/-- One event of a conversation. -/
inductive Event where
  | sentHandshake (h : Handshake)
  | gotHandshake (h : Handshake)
  | sent (m : Message)
  | received (m : Message)

/-- src/peer/mod.rs:302-307 `MessageChannel`: the frames still to come (and what happens after them), the number of
successful sends so far, the conversation so far and all bytes sent. -/
structure Chan where
  frames : List Bytes
  stop : Stop
  nsent : Nat
  trace : List Event
  out : Bytes
  localReg : Bep10Registry
  remoteReg : Bep10Registry

/-- All frames in `bs` and what happens after them. -/
def allFrames (ending : Ending) (bs : Bytes) : List Bytes × Stop :=
  let (fs, s) := Codec.recvN ending (bs.length + 1) .new (if bs.isEmpty then [] else [bs])
  (fs, s.getD .pending)

/-- Writing bytes to the stream (`write_all_buf`, `flush`).  If it fails, nothing is recorded, although a part of the
bytes may have been sent. -/
def Chan.write (l : Link) (c : Chan) (w : Bytes) (e : Event) : Chan × Res PeerError Unit :=
  match l.sends c.nsent with
  | .ok => ({ c with nsent := c.nsent + 1, trace := c.trace ++ [e], out := c.out ++ w }, .ok ())
  | .fail => (c, .err .send)
  | .hang => (c, .hang)

/-- src/peer/mod.rs:332-338 `MessageChannel::send`. -/
def Chan.send (l : Link) (c : Chan) (m : Message) : Chan × Res PeerError Unit :=
  match m.encode c.remoteReg with
  | .error _ => (c, .panic)
  | .ok buf =>
    match frameEncode buf with
    | none => (c, .err .send)
    | some w => c.write l w (.sent m)

/-- src/peer/mod.rs:340-348 `MessageChannel::recv`. -/
def Chan.recv (c : Chan) : Chan × Res PeerError Message :=
  match c.frames with
  | [] =>
    match c.stop with
    | .pending => (c, .hang)
    | .disconnect => (c, .err .disconnect)
    | s => (c, .err (.recv s))
  | f :: fs =>
    match Message.decode f c.localReg with
    | .error e => ({ c with frames := fs }, .err (.message e))
    | .ok m => ({ c with frames := fs, trace := c.trace ++ [.received m] }, .ok m)

theorem Chan.recv_decreases {c c' : Chan} {m : Message} (h : c.recv = (c', .ok m)) :
    c'.frames.length < c.frames.length := by
  unfold Chan.recv at h
  split at h
  · split at h <;> cases h
  · rename_i f fs hf
    split at h
    · cases h
    · cases h; rw [hf]; simp

theorem Chan.send_frames {l : Link} {c c' : Chan} {m : Message} {r : Res PeerError Unit} (h : c.send l m = (c', r)) :
    c'.frames = c.frames := by
  unfold Chan.send Chan.write at h
  split at h
  · cases h; rfl
  · split at h
    · cases h; rfl
    · split at h <;> cases h <;> rfl

/-- src/peer/messages.rs:137-141 `From<MetadataMessage> for Message`. -/
def metadataMsg (m : MetadataMessage) : Message := .extended (.metadata m)

/-- src/peer/mod.rs:371-422: the loop of `get_metadata_info` from the point where piece `i` has been requested. -/
def awaitPiece (sha1 : Bytes → Bytes) (l : Link) (size : BitVec 32) (c : Chan) (piecer : TorrentInfoBuilder) (i : BitVec 32) :
    Chan × Res PeerError TorrentInfo :=
  match hr : c.recv with
  | (c, .err e) => (c, .err e)
  | (c, .hang) => (c, .hang)
  | (c, .panic) => (c, .panic)
  | (c1, .ok msg) =>
    match msg with
    | .extended (.metadata (.data piece totalSize payload)) =>
      if totalSize ≠ size then (c1, .err (.sizeMismatch size totalSize))
      else if piece ≠ i then (c1, .err (.wrongPiece i piece))
      else
        match piecer.push payload with
        | (_, .error .panic) => (c1, .panic)
        | (_, .error e) => (c1, .err (.infoPush e))
        | (piecer, .ok ()) =>
          match piecer.nextPiece with
          | none =>
            match piecer.build sha1 with
            | .ok info => (c1, .ok info)
            | .error e => (c1, .err (.infoBuild e))
          | some j =>
            match hs : c1.send l (metadataMsg (.request (BitVec.ofNat 32 j))) with
            | (c2, .ok ()) => awaitPiece sha1 l size c2 piecer (BitVec.ofNat 32 j)
            | (c2, .err e) => (c2, .err e)
            | (c2, .hang) => (c2, .hang)
            | (c2, .panic) => (c2, .panic)
    | .extended (.metadata (.reject piece)) =>
      if piece ≠ i then (c1, .err (.wrongPiece i piece)) else (c1, .err (.infoRequestRejected piece))
    | .extended (.metadata (.request piece)) =>
      match hs : c1.send l (metadataMsg (.reject piece)) with
      | (c2, .ok ()) => awaitPiece sha1 l size c2 piecer i
      | (c2, .err e) => (c2, .err e)
      | (c2, .hang) => (c2, .hang)
      | (c2, .panic) => (c2, .panic)
    | .extended (.metadata (.unknown _)) => awaitPiece sha1 l size c1 piecer i
    | msg => if msg.canBeIgnored then awaitPiece sha1 l size c1 piecer i else (c1, .err (.unexpected msg))
termination_by c.frames.length
decreasing_by
  · have := Chan.recv_decreases hr; rw [Chan.send_frames hs]; exact this
  · have := Chan.recv_decreases hr; rw [Chan.send_frames hs]; exact this
  · exact Chan.recv_decreases hr
  · exact Chan.recv_decreases hr

/-- src/peer/mod.rs:360-427 `PeerConnection::get_metadata_info`. -/
def getMetadataInfo (sha1 : Bytes → Bytes) (l : Link) (ih : InfoHash) (metadataSize : Option (BitVec 32)) (c : Chan) :
    Chan × Res PeerError TorrentInfo :=
  match metadataSize with
  | none => (c, .err .noMetadataSize)
  | some size =>
    match TorrentInfoBuilder.new ih size with
    | .error .panic => (c, .panic)
    | .error e => (c, .err (.infoConstruct e))
    | .ok piecer =>
      match piecer.nextPiece with
      | none =>
        match piecer.build sha1 with
        | .ok info => (c, .ok info)
        | .error e => (c, .err (.infoBuild e))
      | some i =>
        match c.send l (metadataMsg (.request (BitVec.ofNat 32 i))) with
        | (c, .ok ()) => awaitPiece sha1 l size c piecer (BitVec.ofNat 32 i)
        | (c, .err e) => (c, .err e)
        | (c, .hang) => (c, .hang)
        | (c, .panic) => (c, .panic)

/-- What `connect` needs to know: the info hash, our peer ID, and the address of the peer. -/
structure PeerCtx where
  infoHash : InfoHash
  localId : PeerId
  peerIp : IpAddr

/-- src/consts.rs:23 `UT_METADATA`. -/
def utMetadata : BitVec 8 := 42

/-- src/peer/mod.rs:261-267 the local registry; `none` is the panic of the `expect`. -/
def localRegistry : Option Bep10Registry :=
  match (RegistryOf.new : Bep10Registry).register .metadata utMetadata with
  | (r, .ok ()) => some r
  | (_, .error _) => none

/-- src/peer/mod.rs:268-274 our extended handshake. -/
def ourExtendedHandshake (ctx : PeerCtx) (localReg : Bep10Registry) : ExtendedHandshake :=
  { e := none, m := some (localReg.toM Bep10Extension.display), v := some client, metadataSize := none,
    yourip := some ctx.peerIp }

/-- src/peer/mod.rs:268-298: from the extended handshake on. -/
def connectExtended (l : Link) (ctx : PeerCtx) (exts : ExtensionSet) (c : Chan) :
    Chan × Res PeerError (Option (BitVec 32)) :=
  match c.send l (.extended (.handshake (ourExtendedHandshake ctx c.localReg))) with
  | (c, .err e) => (c, .err e)
  | (c, .hang) => (c, .hang)
  | (c, .panic) => (c, .panic)
  | (c, .ok ()) =>
    match c.recv with
    | (c, .err e) => (c, .err e)
    | (c, .hang) => (c, .hang)
    | (c, .panic) => (c, .panic)
    | (c, .ok (.extended (.handshake shake))) =>
      match shake.intoRegistry with
      | .error e => (c, .err (.registry e))
      | .ok remote =>
        if ! remote.contains .metadata then (c, .err .noMetadataExt)
        else
          let c := { c with remoteReg := remote }
          if exts.has .fast then
            match c.send l (.core .haveNone) with
            | (c, .err e) => (c, .err e)
            | (c, .hang) => (c, .hang)
            | (c, .panic) => (c, .panic)
            | (c, .ok ()) => (c, .ok shake.metadataSize)
          else (c, .ok shake.metadataSize)
    | (c, .ok _) => (c, .err .noExtendedHandshake)

/-- src/peer/mod.rs:214-299 `InfoGetter::connect`: the channel afterwards and the result, which carries the size of
the metadata. -/
def connect (l : Link) (ctx : PeerCtx) (encrypt : Bool) : Chan × Res PeerError (Option (BitVec 32)) :=
  let c : Chan := ⟨[], .pending, 0, [], [], .new, .new⟩
  match l.connect with
  | .fail => (c, .err .connect)
  | .hang => (c, .hang)
  | .ok =>
    match (if encrypt then l.crypto else .ok) with
    | .fail => (c, .err .cryptoHandshake)
    | .hang => (c, .hang)
    | .overflow => (c, .panic)
    | .ok =>
      let ours := Handshake.new supportedExtensions ctx.infoHash ctx.localId
      match c.write l ours.encode (.sentHandshake ours) with
      | (c, .err e) => (c, .err e)
      | (c, .hang) => (c, .hang)
      | (c, .panic) => (c, .panic)
      | (c, .ok ()) =>
        if l.incoming.length < 68 then
          match l.ending with
          | .stall => (c, .hang)
          | .eof => (c, .err (.recv .truncated))
          | .ioError => (c, .err (.recv .ioError))
        else
          match Handshake.decode (l.incoming.take 68) with
          | .error e => (c, .err (.handshake e))
          | .ok theirs =>
            let c := { c with trace := c.trace ++ [.gotHandshake theirs] }
            if theirs.infoHash ≠ ctx.infoHash then (c, .err (.infoHashMismatch ctx.infoHash theirs.infoHash))
            else
              let exts := (ExtensionSet.fromIter supportedExtensions).and theirs.extensions
              if ! exts.has .bep10 then (c, .err .noBep10)
              else
                match localRegistry with
                | none => (c, .panic)
                | some reg =>
                  let (fs, stop) := allFrames l.ending (l.incoming.drop 68)
                  connectExtended l ctx exts { c with frames := fs, stop := stop, localReg := reg }

/-- src/peer/mod.rs:31-36 `CryptoMode`. -/
inductive CryptoMode where
  | encrypt
  | prefer
  | plain
  deriving DecidableEq

/-- src/config.rs:268-276 `CryptoPreference`. -/
inductive CryptoPreference where
  | always
  | prefer
  | ifRequired
  | never
  deriving DecidableEq

/-- src/config.rs:287-297 `CryptoPreference::get_crypto_mode`. -/
def CryptoPreference.getCryptoMode : CryptoPreference → Bool → Option CryptoMode
  | .always, _ => some .encrypt
  | .prefer, true => some .encrypt
  | .prefer, false => some .prefer
  | .ifRequired, true => some .encrypt
  | .ifRequired, false => some .plain
  | .never, true => none
  | .never, false => some .plain

/-- src/peer/mod.rs:175-187 `InfoGetter::get_crypto_mode`: the mode given on the command line, if any, otherwise the
preference of the configuration (src/app.rs:34-36); `none` is the error `CantRequireCrypto`. -/
def getCryptoMode (override : Option CryptoMode) (pref : CryptoPreference) (requiresCrypto : Bool) :
    Option CryptoMode :=
  match override with
  | some cs =>
    match cs, requiresCrypto with
    | .prefer, true => some .encrypt
    | .plain, true => none
    | cs, _ => some cs
  | none => pref.getCryptoMode requiresCrypto

/-- One attempt to connect: encrypted or not, and its conversation. -/
structure Attempt where
  encrypt : Bool
  trace : List Event

/-- src/peer/mod.rs:207-211: what `run` does with the connection `r` made over the link `l`, after the attempts
`before`. -/
def finishRun (sha1 : Bytes → Bytes) (ctx : PeerCtx) (before : List Attempt) (l : Link) (encrypt : Bool)
    (r : Chan × Res PeerError (Option (BitVec 32))) : List Attempt × Res PeerError TorrentInfo :=
  match r with
  | (c, .ok size) =>
    let (c', r') := getMetadataInfo sha1 l ctx.infoHash size c
    (before ++ [⟨encrypt, c'.trace⟩], r')
  | (c, .err e) => (before ++ [⟨encrypt, c.trace⟩], .err e)
  | (c, .hang) => (before ++ [⟨encrypt, c.trace⟩], .err .connectTimeout)
  | (c, .panic) => (before ++ [⟨encrypt, c.trace⟩], .panic)

/-- src/peer/mod.rs:189-212 `InfoGetter::run`: the attempts made and the result.  `links` gives the environment of the
first and the second attempt.  A connection attempt that would never end is ended by the timeout; any moment at which
the timeout strikes corresponds to a link that stalls there. -/
def infoGetterRun (sha1 : Bytes → Bytes) (links : Nat → Link) (ctx : PeerCtx) (override : Option CryptoMode)
    (pref : CryptoPreference) (requiresCrypto : Bool) : List Attempt × Res PeerError TorrentInfo :=
  match getCryptoMode override pref requiresCrypto with
  | none => ([], .err .cantRequireCrypto)
  | some .encrypt => finishRun sha1 ctx [] (links 0) true (connect (links 0) ctx true)
  | some .plain => finishRun sha1 ctx [] (links 0) false (connect (links 0) ctx false)
  | some .prefer =>
    match connect (links 0) ctx true with
    | (c, .err .cryptoHandshake) => finishRun sha1 ctx [⟨true, c.trace⟩] (links 1) false (connect (links 1) ctx false)
    | r => finishRun sha1 ctx [] (links 0) true r

end Demag
