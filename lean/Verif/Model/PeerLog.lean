import Verif.Model.LogText
import Verif.Model.SecureLink

/-!
# Model: the log of fetching metadata from a peer (the `log::…!` statements of src/peer/mod.rs and src/peer/msepe.rs)

Every function here walks through the function of the same name (`Model/Mse.lean`, `Model/PeerSession.lean`, `Model/SecureLink.lean`) and
collects what is logged on the way.  `p` is the peer, `m` the torrent as the log names it.  Lines of all levels are collected; which of them are
printed is the subject of `Model/ProgramLog.lean`.
-/

namespace Demag

/-! ### The encryption handshake -/

/-- src/peer/msepe.rs:187-207: state `PadD` (`onPadD`). -/
def onPadDLog (p : Peer) (needed : Nat) (buf : Bytes) : List LogLine :=
  if needed - min needed buf.length = 0 then [.peerStep 4 p] else []

/-- src/peer/msepe.rs:177-186: state `LenPadD` (`onLenPadD`). -/
def onLenPadDLog (p : Peer) (ks : Keystream) (buf : Bytes) : List LogLine :=
  if buf.length < 2 then [] else onPadDLog p (beAccum (ks.decode (buf.take 2)).1) (buf.drop 2)

/-- src/peer/msepe.rs:159-176: state `Select` (`onSelect`). -/
def onSelectLog (p : Peer) (provide : BitVec 32) (ks : Keystream) (buf : Bytes) : List LogLine :=
  if buf.length < 4 then []
  else
    let d := ks.decode (buf.take 4)
    let cs := BitVec.ofNat 32 (beAccum d.1)
    if countOnes cs ≠ 1 then []
    else
      match CryptoMethod.ofCode cs with
      | none => []
      | some m => if methodSetContains provide m then .selected p m :: onLenPadDLog p d.2 (buf.drop 4) else []

/-- src/peer/msepe.rs:150-158: state `Vc` (`onVc`). -/
def onVcLog (p : Peer) (provide : BitVec 32) (ks : Keystream) (buf : Bytes) : List LogLine :=
  if buf.length < 8 then []
  else
    let d := ks.decode (buf.take 8)
    if d.1.all (fun b => b == 0) then onSelectLog p provide d.2 (buf.drop 8) else []

/-- src/peer/msepe.rs:148-209 (`packet4Loop`). -/
def packet4Log (p : Peer) (provide : BitVec 32) (ks : Keystream) (sub : Packet4State) (buf : Bytes) : List LogLine :=
  match sub with
  | .vc => onVcLog p provide ks buf
  | .select => onSelectLog p provide ks buf
  | .lenPadD _ => onLenPadDLog p ks buf
  | .padD _ n => onPadDLog p n buf

/-- src/peer/msepe.rs:141-212 `Handshaker::handle_input`. -/
def Handshaker.inputLog (p : Peer) (h : Handshaker) (b : Bytes) : List LogLine :=
  match h.state with
  | .packet4 ks sub => packet4Log p h.provide ks sub (h.input ++ b)
  | _ => []

/-- src/peer/msepe.rs:417-467 `EncryptedStream::handshake` (`handshakeLoop`).  A packet is announced before it is sent (lines 426-429). -/
def handshakeLog (H : Bytes → Bytes) (sendOk : Nat → Bool) (p : Peer) (n : Nat) (deadline : Bool) (h : Handshaker)
    (reads : List HandshakeRead) : List LogLine :=
  match h.state with
  | .done _ => []
  | _ =>
    let sent := if h.output.isSome then [LogLine.sendingPacket n p] else []
    if h.output.isSome && !sendOk n then sent
    else
      let n' := if h.output.isSome then n + 2 else n
      let deadline' := deadline || h.timeout
      let h' := { h with output := none, timeout := false }
      match reads with
      | [] => sent
      | .data [] :: _ => sent
      | .data b :: rest =>
        match h'.handleInput b with
        | .error _ => sent ++ h'.inputLog p b
        | .ok h'' => sent ++ h'.inputLog p b ++ handshakeLog H sendOk p n' deadline' h'' rest
      | .eof :: _ => sent
      | .failed :: _ => sent
      | .timeout :: rest =>
        if deadline' then
          match h'.handleTimeout H with
          | .error _ => sent ++ [.peerStep 5 p]
          | .ok h'' => sent ++ .peerStep 5 p :: handshakeLog H sendOk p n' false h'' rest
        else sent

/-- src/peer/mod.rs:222-232: the encryption handshake on a connection (`RawLink.secure`; src/peer/msepe.rs:437 is the panic `overflows`). -/
def RawLink.secureLog (H : Bytes → Bytes) (p : Peer) (c : Chances) (w : RawLink) (skey : InfoHash) : List LogLine :=
  if w.overflows c then [.sendingPacket 1 p]
  else handshakeLog H (fun n => w.sends (n / 2) = .ok) p 1 false (Handshaker.build skey c.privateKey c.padA c.padcLen) w.reads

/-! ### The conversation -/

/-- src/peer/mod.rs:371-426: the loop of `get_metadata_info` from the point where piece `i` has been requested (`awaitPiece`). -/
def awaitPieceLog (sha1 : Bytes → Bytes) (m : Magnet) (p : Peer) (l : Link) (size : BitVec 32) (c : Chan) (piecer : TorrentInfoBuilder)
    (i : BitVec 32) : List LogLine :=
  match hr : c.recv with
  | (_, .err _) => []
  | (_, .hang) => []
  | (_, .panic) => []
  | (c1, .ok msg) =>
    .received p msg ::
    match msg with
    | .extended (.metadata (.data piece totalSize payload)) =>
      if totalSize ≠ size then []
      else if piece ≠ i then []
      else
        match piecer.push payload with
        | (_, .error _) => []
        | (piecer, .ok ()) =>
          match piecer.nextPiece with
          | none =>
            match piecer.build sha1 with
            | .ok _ => [.gotMetadata m p]
            | .error _ => []
          | some j =>
            .sending p (metadataMsg (.request (BitVec.ofNat 32 j))) ::
            match hs : c1.send l (metadataMsg (.request (BitVec.ofNat 32 j))) with
            | (c2, .ok ()) => awaitPieceLog sha1 m p l size c2 piecer (BitVec.ofNat 32 j)
            | (_, .err _) => []
            | (_, .hang) => []
            | (_, .panic) => []
    | .extended (.metadata (.reject _)) => []
    | .extended (.metadata (.request piece)) =>
      .rejecting piece p :: .sending p (metadataMsg (.reject piece)) ::
      match hs : c1.send l (metadataMsg (.reject piece)) with
      | (c2, .ok ()) => awaitPieceLog sha1 m p l size c2 piecer i
      | (_, .err _) => []
      | (_, .hang) => []
      | (_, .panic) => []
    | .extended (.metadata (.unknown _)) => awaitPieceLog sha1 m p l size c1 piecer i
    | msg => if msg.canBeIgnored then awaitPieceLog sha1 m p l size c1 piecer i else []
termination_by c.frames.length
decreasing_by
  · have := Chan.recv_decreases hr; rw [Chan.send_frames hs]; exact this
  · have := Chan.recv_decreases hr; rw [Chan.send_frames hs]; exact this
  · exact Chan.recv_decreases hr
  · exact Chan.recv_decreases hr

/-- src/peer/mod.rs:360-427 `PeerConnection::get_metadata_info` (`getMetadataInfo`). -/
def getMetadataLog (sha1 : Bytes → Bytes) (m : Magnet) (p : Peer) (l : Link) (ih : InfoHash) (metadataSize : Option (BitVec 32))
    (c : Chan) : List LogLine :=
  match metadataSize with
  | none => []
  | some size =>
    match TorrentInfoBuilder.new ih size with
    | .error _ => []
    | .ok piecer =>
      match piecer.nextPiece with
      | none =>
        match piecer.build sha1 with
        | .ok _ => [.gotMetadata m p]
        | .error _ => []
      | some i =>
        .sending p (metadataMsg (.request (BitVec.ofNat 32 i))) ::
        match c.send l (metadataMsg (.request (BitVec.ofNat 32 i))) with
        | (c, .ok ()) => awaitPieceLog sha1 m p l size c piecer (BitVec.ofNat 32 i)
        | _ => []

/-- src/peer/mod.rs:268-298 (`connectExtended`). -/
def connectExtendedLog (p : Peer) (l : Link) (ctx : PeerCtx) (exts : ExtensionSet) (c : Chan) : List LogLine :=
  .sending p (.extended (.handshake (ourExtendedHandshake ctx c.localReg))) ::
  match c.send l (.extended (.handshake (ourExtendedHandshake ctx c.localReg))) with
  | (c, .ok ()) =>
    match c.recv with
    | (_, .ok msg) =>
      .received p msg ::
      match msg with
      | .extended (.handshake shake) =>
        match shake.intoRegistry with
        | .error _ => []
        | .ok remote =>
          if ! remote.contains .metadata then []
          else if exts.has .fast then [.sending p (.core .haveNone)]
          else []
      | _ => []
    | _ => []
  | _ => []

/-- src/peer/mod.rs:237-298: the end of `connect`, the connection being there and encrypted if it is to be. -/
def shakeLog (p : Peer) (l : Link) (ctx : PeerCtx) : List LogLine :=
  let c : Chan := ⟨[], .pending, 0, [], [], .new, .new⟩
  .peerStep 3 p ::
  let ours := Handshake.new supportedExtensions ctx.infoHash ctx.localId
  match c.write l ours.encode (.sentHandshake ours) with
  | (c, .ok ()) =>
    if l.incoming.length < 68 then []
    else
      match Handshake.decode (l.incoming.take 68) with
      | .error _ => []
      | .ok theirs =>
        .gotHandshake p theirs ::
        if theirs.infoHash ≠ ctx.infoHash then []
        else
          let exts := (ExtensionSet.fromIter supportedExtensions).and theirs.extensions
          if ! exts.has .bep10 then []
          else
            match localRegistry with
            | none => []
            | some reg =>
              let (fs, stop) := allFrames l.ending (l.incoming.drop 68)
              connectExtendedLog p l ctx exts
                { c with trace := c.trace ++ [.gotHandshake theirs], frames := fs, stop := stop, localReg := reg }
  | _ => []

/-- src/peer/mod.rs:214-299 `InfoGetter::connect` (`connect`), on the network. -/
def connectLog (H : Bytes → Bytes) (p : Peer) (c : Chances) (w : RawLink) (ctx : PeerCtx) (encrypt : Bool) : List LogLine :=
  let l := w.link H c ctx.infoHash encrypt
  .peerStep 0 p ::
  match l.connect with
  | .fail => []
  | .hang => []
  | .ok =>
    .peerStep 1 p ::
    ((if encrypt then .peerStep 2 p :: w.secureLog H p c ctx.infoHash else []) ++
      match (if encrypt then l.crypto else .ok) with
      | .ok => shakeLog p l ctx
      | _ => [])

/-- src/peer/mod.rs:207-211: a connection and what is done with it (`finishRun`). -/
def visitLog (sha1 H : Bytes → Bytes) (m : Magnet) (p : Peer) (c : Chances) (w : RawLink) (ctx : PeerCtx) (encrypt : Bool) : List LogLine :=
  let l := w.link H c ctx.infoHash encrypt
  connectLog H p c w ctx encrypt ++
    match connect l ctx encrypt with
    | (c, .ok size) => getMetadataLog sha1 m p l ctx.infoHash size c
    | _ => []

/-- The error of the encryption handshake (src/peer/mod.rs:195 `e`, without its wrapper, whose text is the same: line 454). -/
def RawLink.secureError (H : Bytes → Bytes) (c : Chances) (w : RawLink) (skey : InfoHash) : Option MseError :=
  match w.secure H c skey with
  | (_, .err e, _) => some e
  | _ => none

/-- src/peer/mod.rs:189-212 `InfoGetter::run` (`wireRun`). -/
def peerRunLog (sha1 H : Bytes → Bytes) (m : Magnet) (p : Peer) (chances : Nat → Chances) (raws : Nat → RawLink) (ctx : PeerCtx)
    (override : Option CryptoMode) (pref : CryptoPreference) (requiresCrypto : Bool) : List LogLine :=
  .requestingInfo m p ::
  match getCryptoMode override pref requiresCrypto with
  | none => []
  | some .encrypt => visitLog sha1 H m p (chances 0) (raws 0) ctx true
  | some .plain => visitLog sha1 H m p (chances 0) (raws 0) ctx false
  | some .prefer =>
    match connect ((raws 0).link H (chances 0) ctx.infoHash true) ctx true with
    | (_, .err .cryptoHandshake) =>
      connectLog H p (chances 0) (raws 0) ctx true ++
        (((raws 0).secureError H (chances 0) ctx.infoHash).map (LogLine.encryptionFailed p)).toList ++
        visitLog sha1 H m p (chances 1) (raws 1) ctx false
    | _ => visitLog sha1 H m p (chances 0) (raws 0) ctx true

end Demag
