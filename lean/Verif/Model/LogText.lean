import Verif.Model.Display
import Verif.Model.IpParse
import Verif.Model.Magnet
import Verif.Model.PeerSession
import Verif.Model.Mse
import Verif.Model.DhtMsg
import Verif.Model.Dht
import Verif.Model.TrackerFlow
import Verif.Model.Template
import Verif.Model.UrlParse

/-!
# What the log says: the model of the texts in the messages of the program's log

The `log::…!` statements of `/repo/src`, the implementations of `Display` they use and the texts of the errors
(`#[error("…")]`, crate `thiserror`).
-/

namespace Demag

/-- What is taken from outside.  `plain` tells which characters `char::escape_debug` (std) leaves as they are, apart from the
ones with an escape of their own; the others are the texts of errors of the system and of other crates. -/
structure LogEnv where
  plain : Char → Bool
  io : Err
  bendy : Err
  url : Err
  decoding : Err
  reqwest : Err

/-! ### Quoting -/

/-- `char::escape_unicode` (std). -/
def escapeUnicode (c : Char) : Text := '\\' :: 'u' :: '{' :: (hexNat c.toNat ++ ['}'])

/-- `char::escape_debug_ext` (std) as it is used for texts: double quotes are escaped, single quotes are not. -/
def debugChar (plain : Char → Bool) (c : Char) : Text :=
  if c = Char.ofNat 0 then ['\\', '0']
  else if c = '\t' then ['\\', 't']
  else if c = '\r' then ['\\', 'r']
  else if c = '\n' then ['\\', 'n']
  else if c = '\\' then ['\\', '\\']
  else if c = '"' then ['\\', '"']
  else if plain c then [c]
  else escapeUnicode c

/-- `{:?}` of a text: `Debug for str` (std). -/
def debugText (plain : Char → Bool) (s : Text) : Text := '"' :: (s.flatMap (debugChar plain) ++ ['"'])

/-- `{:02x}` (std) of a byte. -/
def hexByte (b : UInt8) : Text := [hexChar (b.toNat / 16), hexChar (b.toNat % 16)]

/-- One byte in `Debug for Bytes` (crate `bytes`). -/
def debugByte (b : UInt8) : Text :=
  if b = 10 then ['\\', 'n']
  else if b = 13 then ['\\', 'r']
  else if b = 9 then ['\\', 't']
  else if b = 92 ∨ b = 34 then ['\\', Char.ofNat b.toNat]
  else if b = 0 then ['\\', '0']
  else if 0x20 ≤ b.toNat ∧ b.toNat < 0x7f then [Char.ofNat b.toNat]
  else '\\' :: 'x' :: hexByte b

/-- `Debug for Bytes` (crate `bytes`). -/
def debugBytes (bs : Bytes) : Text := 'b' :: '"' :: (bs.flatMap debugByte ++ ['"'])

/-- `{:#x}` (std). -/
def hexAlt (n : Nat) : Text := '0' :: 'x' :: hexNat n

/-- `{:#018x}` (std): zeros up to a width of 18 in all. -/
def hexAlt18 (n : Nat) : Text := '0' :: 'x' :: (List.replicate (16 - (hexNat n).length) '0' ++ hexNat n)

/-- `{:#4x}` (std): blanks up to a width of 4 in all. -/
def hexAlt4 (n : Nat) : Text := List.replicate (4 - (hexAlt n).length) ' ' ++ hexAlt n

/-! ### Displays -/

/-- src/peer/mod.rs:77-81 `Display for Peer`. -/
def Peer.text (p : Peer) : Text := "<Peer ".toList ++ sockText p.address ++ ['>']

/-- src/types.rs:149-153 `Display for PeerId`. -/
def PeerId.text (p : PeerId) : Text := debugBytes p.bytes

/-- src/peer/extensions.rs:52-76 `Display for ExtensionSet`. -/
def ExtensionSet.text (s : ExtensionSet) : Text :=
  commaList ((s.shown.1.map fun e => e.display.toList) ++
    if s.shown.2 ≠ 0 then ["Unknown(".toList ++ hexAlt18 s.shown.2.toNat ++ [')']] else [])

/-- src/peer/messages.rs:38-46 `Display for Handshake`. -/
def Handshake.text (h : Handshake) : Text :=
  "handshake (extensions: ".toList ++ h.extensions.text ++ "; peer ID: ".toList ++ h.peerId.text ++ [')']

/-- `u8::count_ones` (std). -/
def onesOfByte (b : UInt8) : Nat := ((List.range 8).filter fun i => b.toNat / 2 ^ i % 2 = 1).length

/-- src/peer/messages.rs:189-229 `Display for CoreMessage`. -/
def CoreMessage.text : CoreMessage → Text
  | .keepalive => "keepalive".toList
  | .choke => "choke".toList
  | .unchoke => "unchoke".toList
  | .interested => "interested".toList
  | .notInterested => "not interested".toList
  | .have' p => "have: piece ".toList ++ decimal p.toNat
  | .bitfield bs => "bitfield: have ".toList ++ decimal ((bs.map onesOfByte).sum) ++ " pieces".toList
  | .request i b l => "request: index ".toList ++ decimal i.toNat ++ ", begin ".toList ++ decimal b.toNat ++ ", length ".toList ++
      decimal l.toNat
  | .piece i b d => "piece: index ".toList ++ decimal i.toNat ++ ", begin ".toList ++ decimal b.toNat ++ ", length ".toList ++
      decimal d.length
  | .cancel i b l => "cancel: index ".toList ++ decimal i.toNat ++ ", begin ".toList ++ decimal b.toNat ++ ", length ".toList ++
      decimal l.toNat
  | .port p => "DHT port: ".toList ++ decimal p.toNat
  | .suggest i => "suggest: piece ".toList ++ decimal i.toNat
  | .haveAll => "have all".toList
  | .haveNone => "have none".toList
  | .reject i b l => "reject: index ".toList ++ decimal i.toNat ++ ", begin ".toList ++ decimal b.toNat ++ ", length ".toList ++
      decimal l.toNat
  | .allowedFast i => "allowed fast: piece ".toList ++ decimal i.toNat
  | .extended m _ => "extended message (message ID ".toList ++ decimal m.toNat ++ [')']

/-- The text `f` gives for a value that may be missing. -/
def optText {α : Type} (f : α → Text) : Option α → Text
  | none => []
  | some a => f a

/-- src/peer/messages.rs:533-539. -/
def preferText (e : Bool) : Text := if e then "; prefers encryption".toList else "; does not prefer encryption".toList

/-- src/peer/messages.rs:515-551 `Display for ExtendedHandshake`. -/
def ExtendedHandshake.text (plain : Char → Bool) (s : ExtendedHandshake) : Text :=
  "extended handshake: ".toList ++
    (match s.m with
      | some m => "extensions: ".toList ++ commaList (m.map fun kv => debugText plain kv.1)
      | none => "no extensions".toList) ++
    optText preferText s.e ++
    optText (fun v => "; client: ".toList ++ debugText plain v) s.v ++
    optText (fun n => "; metadata size: ".toList ++ decimal n.toNat) s.metadataSize ++
    optText (fun ip => "; yourip: ".toList ++ ipText ip) s.yourip

/-- src/peer/messages.rs:661-680 `Display for MetadataMessage`. -/
def MetadataMessage.text : MetadataMessage → Text
  | .request p => "metadata request: piece ".toList ++ decimal p.toNat
  | .data p t d => "metadata data: piece ".toList ++ decimal p.toNat ++ ", total size ".toList ++ decimal t.toNat ++
      ", payload size ".toList ++ decimal d.length
  | .reject p => "metadata reject: piece ".toList ++ decimal p.toNat
  | .unknown t => "metadata: unknown message type ".toList ++ decimal t.toNat

/-- src/peer/messages.rs:488-495 `Display for ExtendedMessage`. -/
def ExtendedMessage.text (plain : Char → Bool) : ExtendedMessage → Text
  | .handshake s => s.text plain
  | .metadata m => m.text

/-- src/peer/messages.rs:122-129 `Display for Message`. -/
def Message.text (plain : Char → Bool) : Message → Text
  | .core m => m.text
  | .extended m => m.text plain

/-- src/magnet.rs:154-162 `Display for Magnet`. -/
def Magnet.text (plain : Char → Bool) (m : Magnet) : Text :=
  match m.displayName with
  | some dn => debugText plain dn ++ " (".toList ++ m.infoHash.displayText ++ [')']
  | none => m.infoHash.displayText

/-- src/tracker/mod.rs:114-121 `Display for Tracker`, with src/tracker/http.rs:41-45 and src/tracker/udp.rs:34-38. -/
def Tracker.text : Tracker → Text
  | .http u => "<Tracker ".toList ++ u.text ++ ['>']
  | .udp u => "<Tracker ".toList ++ u.display ++ ['>']

/-- src/dht/mod.rs:21-28 `Display for NodeId`. -/
def NodeId.text (n : NodeId) : Text := n.bytes.flatMap hexByte

/-- src/dht/actor.rs:811-824 `NodeDisplay` and its `Display`, with src/dht/mod.rs:97-101 `Display for Node`: the node known at the address, if
there is one (src/dht/actor.rs:665-670). -/
def nodeDisplay (addr : SockAddr) : Option Node → Text
  | some n => "DHT node ".toList ++ n.id.text ++ " at ".toList ++ sockText n.address
  | none => "DHT node at ".toList ++ sockText addr

/-- src/dht/messages.rs:249-259 `Display for ErrorCode`. -/
def ErrorCode.text : ErrorCode → Text
  | .generic => "generic error".toList
  | .server => "server error".toList
  | .protocol => "protocol error".toList
  | .methodUnknown => "method unknown error".toList
  | .other n => "other error: code ".toList ++ decimal n.toNat

/-- src/dht/messages.rs:170-174 `Display for ErrorResponse`. -/
def ErrorResponse.text (plain : Char → Bool) (e : ErrorResponse) : Text := e.code.text ++ ": ".toList ++ debugText plain e.message

/-! ### Errors -/

/-- src/util.rs:126-132 `PacketError`. -/
def PacketError.err : PacketError → Err
  | .short => .leaf "unexpected end of packet".toList
  | .long => .leaf "packet had trailing bytes".toList

/-- src/util.rs:148-156 `UnbencodeError`. -/
def UnbencodeError.err (env : LogEnv) : UnbencodeError → Err
  | .bendy => env.bendy
  | .noData => .leaf "no data in bencode packet".toList
  | .trailingData => .leaf "trailing bytes after bencode structure".toList

/-- src/peer/messages.rs:80-86 `HandshakeError`. -/
def HandshakeError.err : HandshakeError → Err
  | .invalidHeader => .leaf "peer sent handshake with invalid header".toList
  | .length e => .caused "peer sent handshake with invalid length".toList e.err

/-- src/peer/messages.rs:805-817 `MessageError`. -/
def MessageError.err (env : LogEnv) : MessageError → Err
  | .unknown t => .leaf ("unknown message type: ".toList ++ decimal t.toNat)
  | .length t e => .caused ("message type ".toList ++ hexAlt4 t.toNat ++ " had invalid length".toList) e.err
  | .unknownExtended i => .leaf ("unknown extended message ID: ".toList ++ decimal i.toNat)
  | .extendedHandshake e => .caused "failed to decode extended handshake payload".toList (e.err env)
  | .metadata e => .caused "failed to decode metadata message".toList (e.err env)

/-- src/peer/extensions.rs:209-217 `Bep10RegistryError`. -/
def registryErr : RegistryError Bep10Extension → Err
  | .handshake => .leaf "extended message ID 0 listed in \"m\"".toList
  | .code c => .leaf ("extended message ID ".toList ++ decimal c.toNat ++ " listed in \"m\" more than once".toList)
  | .ext e => .leaf ("extension ".toList ++ e.display ++ " listed in \"m\" more than once".toList)

/-- src/torrent.rs:368-372 `ConstructError`; `panic` is no error of the code (Model/Info.lean). -/
def ConstructError.err : ConstructError → Err
  | .tooLarge n => .leaf ("metadata size of ".toList ++ decimal n.toNat ++ " exceeds ".toList ++ decimal maxInfoLength ++ " limit".toList)
  | .panic => .leaf []

/-- src/torrent.rs:374-384 `PushError`; `panic` is no error of the code (Model/Info.lean). -/
def PushError.err : PushError → Err
  | .tooManyPieces => .leaf "too many metadata pieces fetched".toList
  | .length i e g => .leaf ("wrong length for metadata piece ".toList ++ decimal i ++ ": expected ".toList ++ decimal e ++ ", got ".toList ++
      decimal g)
  | .panic => .leaf []

/-- src/torrent.rs:396-406 `BencodeDictError`. -/
def BencodeDictError.err : BencodeDictError → Err
  | .syntaxError => .leaf "data is not valid bencode".toList
  | .notADict => .leaf "data is not a bencode dict".toList
  | .empty => .leaf "data is empty".toList
  | .trailing => .leaf "data has trailing bytes after bencode dict".toList

/-- src/torrent.rs:386-394 `BuildError`. -/
def BuildError.err : BuildError → Err
  | .bencode e => e.err
  | .notFinished left => .leaf ("not all metadata pieces fetched; ".toList ++ decimal left ++ " remaining".toList)
  | .digest e g => .leaf ("info hash mismatch: expected ".toList ++ e.displayText ++ ", got ".toList ++ g.flatMap hexByte)

/-- `Debug for CryptoMethod` (derived). -/
def CryptoMethod.debug : CryptoMethod → Text
  | .plaintext => "Plaintext".toList
  | .rc4 => "Rc4".toList

/-- src/peer/msepe.rs:355-373 `HandshakeError`. -/
def MseError.err (env : LogEnv) : MseError → Err
  | .packet2Len n => .leaf ("initial crypto handshake packet from server had invalid length: ".toList ++ decimal n ++ " bytes".toList)
  | .vcNotZero => .leaf "received invalid verification constant in crypto handshake".toList
  | .selectNotSingle n => .leaf ("server selected ".toList ++ decimal n ++ " crypto methods instead of exactly 1".toList)
  | .unknownMethod x => .leaf ("server selected unknown crypto method ".toList ++ hexAlt x.toNat)
  | .unexpectedSelection m => .leaf ("server selected crypto method ".toList ++ m.debug ++ " even though we didn't ask for it".toList)
  | .send => .caused "error sending message to peer".toList env.io
  | .recv => .caused "error receiving message from peer".toList env.io
  | .disconnect => .leaf "peer suddenly disconnected".toList

/-- src/peer/mod.rs:430-478 `PeerError`; `mse` is the error of the encryption handshake, if there was one. -/
def PeerError.err (env : LogEnv) (mse : MseError) : PeerError → Err
  | .cantRequireCrypto => .leaf "peer requires encryption, but encryption is disabled".toList
  | .connect => .caused "could not connect to peer".toList env.io
  | .connectTimeout => .leaf "timed out trying to connect to peer and complete handshake".toList
  | .send => .caused "error sending message to peer".toList env.io
  | .recv _ => .caused "error receiving message from peer".toList env.io
  | .infoHashMismatch e g => .leaf ("peer sent wrong info hash in handshake; expected ".toList ++ e.displayText ++ ", got ".toList ++
      g.displayText)
  | .noBep10 => .leaf "peer does not support BEP 10 extensions".toList
  | .noExtendedHandshake => .leaf "peer did not send extended handshake".toList
  | .noMetadataExt => .leaf "peer does not support sending metadata".toList
  | .disconnect => .leaf "peer suddenly disconnected".toList
  | .handshake e => e.err
  | .cryptoHandshake => mse.err env
  | .message e => .caused "peer sent invalid message".toList (e.err env)
  | .registry e => .caused "peer sent extended handshake with inconsistent \"m\" dict".toList (registryErr e)
  | .noMetadataSize => .leaf "peer did not report info size in extended handshake".toList
  | .infoConstruct e => e.err
  | .infoPush e => e.err
  | .infoBuild e => .caused "peer sent invalid torrent metadata".toList e.err
  | .sizeMismatch h d => .leaf ("peer declared total metadata size as ".toList ++ decimal h.toNat ++ " in extended handshake but as ".toList ++
      decimal d.toNat ++ " in metadata data message".toList)
  | .wrongPiece e g => .leaf ("request for metadata piece ".toList ++ decimal e.toNat ++ " was replied to with message for piece ".toList ++
      decimal g.toNat)
  | .infoRequestRejected p => .leaf ("request for metadata piece ".toList ++ decimal p.toNat ++ " was rejected".toList)
  | .unexpected m => .leaf ("peer sent unexpected message: ".toList ++ m.text env.plain)

/-- src/tracker/mod.rs:239-240: the error message of a tracker. -/
def failureErr (plain : Char → Bool) (msg : Text) : Err := .leaf ("tracker replied with error message ".toList ++ debugText plain msg)

/-- src/tracker/udp.rs:451-465 `UdpTrackerError`. -/
def UdpError.err (env : LogEnv) : UdpError → Err
  | .send => .caused "failed to send UDP packet".toList env.io
  | .recv => .caused "failed to receive UDP packet".toList env.io
  | .packetLen e => .caused "UDP tracker sent response with invalid length".toList e.err
  | .badAction e g => .leaf ("UDP tracker sent response with unexpected or unsupported action; expected ".toList ++ decimal e.toNat ++
      ", got ".toList ++ decimal g.toNat)
  | .xactionMismatch e g => .leaf ("response from UDP tracker did not contain expected transaction ID; expected ".toList ++ hexAlt e.toNat ++
      ", got ".toList ++ hexAlt g.toNat)
  | .failure msg => failureErr env.plain msg

/-- src/tracker/http.rs:215-227 `HttpTrackerError`. -/
def HttpError.err (env : LogEnv) : HttpError → Err
  | .sendRequest => .caused "failed to send request to HTTP tracker".toList env.reqwest
  | .httpStatus => .caused "HTTP tracker responded with HTTP error".toList env.reqwest
  | .readBody => .caused "failed to read HTTP tracker response".toList env.reqwest
  | .parseResponse e => .caused "failed to parse HTTP tracker response".toList (e.err env)
  | .failure msg => failureErr env.plain msg

/-- src/tracker/mod.rs:235-245 `TrackerError`, src/tracker/udp.rs:443-450, src/tracker/http.rs:217-218. -/
def AskError.err (env : LogEnv) : AskError → Err
  | .lookup => .caused "failed to resolve remote hostname".toList env.io
  | .noResolve => .leaf "remote hostname did not resolve to any IP addresses".toList
  | .bind => .caused "failed to bind UDP socket".toList env.io
  | .connect => .caused "failed to connect UDP socket".toList env.io
  | .buildClient => .caused "failed to build HTTP client".toList env.reqwest
  | .udp e => e.err env
  | .http e => e.err env

/-- src/tracker/mod.rs:235-245 `TrackerError` with `Timeout`. -/
def getterErr (env : LogEnv) : GetterError AskError → Err
  | .timeout => .leaf "interactions with tracker did not complete in time".toList
  | .inner e => e.err env

/-- src/tracker/mod.rs:223-233 `TrackerUrlError`. -/
def TrackerUrlError.err (env : LogEnv) : TrackerUrlError → Err
  | .url => .caused "invalid tracker URL".toList env.url
  | .unsupportedScheme s => .leaf ("unsupported tracker URL scheme: ".toList ++ debugText env.plain s)
  | .noHost => .leaf "no host in tracker URL".toList
  | .noUdpPort => .leaf "no port in UDP tracker URL".toList

/-- src/types.rs:115-123 `InfoHashError`. -/
def InfoHashError.err (env : LogEnv) : InfoHashError → Err
  | .invalidHex => .caused "info hash is invalid hexadecimal".toList env.decoding
  | .invalidBase32 => .caused "info hash is invalid base32".toList env.decoding
  | .invalidLength n => .leaf ("info hash is ".toList ++ decimal n ++ " bytes long, expected 20".toList)

/-- src/magnet.rs:202-210 `XtError`. -/
def XtError.err (env : LogEnv) : XtError → Err
  | .notUrn => .leaf "\"xt\" parameter is not a URN".toList
  | .notBtih => .leaf "\"xt\" parameter is not in the \"btih\" namespace".toList
  | .infoHash e => .caused "\"xt\" parameter contains invalid info hash".toList (e.err env)

/-- src/magnet.rs:176-190 `MagnetError`. -/
def MagnetError.err (env : LogEnv) : MagnetError → Err
  | .url => .caused "invalid URI".toList env.url
  | .notMagnet => .leaf "not a magnet URI".toList
  | .noXt => .leaf "magnet URI lacks \"xt\" parameter".toList
  | .invalidXt e => .caused "invalid \"xt\" parameter".toList (e.err env)
  | .multipleXt => .leaf "magnet URI has multiple \"xt\" parameters".toList
  | .invalidTracker e => .caused "invalid \"tr\" parameter".toList (e.err env)

/-- src/magnet.rs:254-262 `MagnetsFileError`.  Simplified: `read` is also the failure to open the file. -/
def MagnetsFileError.err (env : LogEnv) : MagnetsFileError → Err
  | .read => .caused "failed reading from file".toList env.io
  | .parse n e => .caused ("invalid magnet link on line ".toList ++ decimal n) (e.err env)

/-- src/dht/messages.rs:382-390 `ResponseError`. -/
def ResponseError.err (env : LogEnv) : ResponseError → Err
  | .bencode e => .caused "failed to decode DHT RPC packet".toList (e.err env)
  | .rpc e => .caused "remote DHT node replied with error".toList (.leaf (e.text env.plain))
  | .query => .leaf "failed to decode response from packet: is actually a query".toList

/-- src/magnet.rs:212-226 `GetInfoError`, `DownloadInfoError` and src/app.rs:91-97 `DhtError`: why a download has failed.  The file cannot be
saved; no peer has given the metadata; or, in a magnet link without trackers, the DHT node could not be created (src/dht/actor.rs:351-355) or is
gone (src/dht/actor.rs:360-361). -/
inductive DownloadFailure where
  | save
  | nothingFromPeers
  | dhtCreate
  | dhtDown
  deriving DecidableEq

/-- The texts of these errors. -/
def DownloadFailure.err (env : LogEnv) : DownloadFailure → Err
  | .save => .caused "failed to save torrent file".toList env.io
  | .nothingFromPeers => .leaf "no peer returned metadata info".toList
  | .dhtCreate => .caused "failed to get peers from DHT".toList (.caused "failed to create DHT node actor".toList
      (.caused "failed to create UDP socket over IPv4".toList env.io))
  | .dhtDown => .caused "failed to get peers from DHT".toList (.leaf "DHT actor is down".toList)

/-! ### The messages -/

/-- The `log::…!` statements that speak of a magnet link, a tracker, a peer or a DHT node, in the order of their places in the code. -/
inductive LogLine where
  /-- src/magnet.rs:36 -/
  | fetching (m : Magnet)
  /-- src/magnet.rs:56-59 -/
  | trackerFailed (t : Tracker) (m : Magnet) (e : GetterError AskError)
  /-- src/magnet.rs:94-99 -/
  | peerFailed (m : Magnet) (p : Peer) (e : PeerError) (mse : MseError)
  /-- src/main.rs:238 -/
  | badMagnets (e : MagnetsFileError)
  /-- src/main.rs:228 -/
  | getFailed (e : DownloadFailure)
  /-- src/main.rs:256-259 -/
  | batchFailed (m : Magnet) (e : DownloadFailure)
  /-- src/main.rs:314 -/
  | queryFailed (e : GetterError AskError)
  /-- src/main.rs:371 -/
  | fetchFailed (e : PeerError) (mse : MseError)
  /-- src/tracker/mod.rs:61-65 -/
  | requestingPeers (m : Magnet) (t : Tracker)
  /-- src/tracker/mod.rs:79 -/
  | returnedCount (t : Tracker) (m : Magnet) (ps : List Peer)
  /-- src/tracker/mod.rs:80-83 -/
  | returned (t : Tracker) (m : Magnet) (ps : List Peer)
  /-- src/tracker/mod.rs:86 -/
  | stopCancelled (t : Tracker) (m : Magnet)
  /-- src/tracker/mod.rs:89-92 -/
  | stopFailed (t : Tracker) (m : Magnet) (e : AskError)
  /-- src/tracker/mod.rs:162-166, 183-187 -/
  | announcing (event : AnnounceEvent) (t : Tracker) (m : Magnet)
  /-- src/tracker/mod.rs:212-217 -/
  | warned (t : Tracker) (m : Magnet) (msg : Text)
  /-- src/tracker/udp.rs:135, 156, 169, 186, 202 -/
  | udpStep (n : Fin 5) (u : UdpUrl)
  /-- src/tracker/udp.rs:239-244 -/
  | udpConnected (u : UdpUrl) (addr : SockAddr)
  /-- src/peer/mod.rs:190 -/
  | requestingInfo (m : Magnet) (p : Peer)
  /-- src/peer/mod.rs:196-200 -/
  | encryptionFailed (p : Peer) (mse : MseError)
  /-- src/peer/mod.rs:215, 219, 221, 237, src/peer/msepe.rs:203, 451-454 -/
  | peerStep (n : Fin 6) (p : Peer)
  /-- src/peer/msepe.rs:174 -/
  | selected (p : Peer) (c : CryptoMethod)
  /-- src/peer/msepe.rs:426-429 -/
  | sendingPacket (n : Nat) (p : Peer)
  /-- src/peer/mod.rs:250 -/
  | gotHandshake (p : Peer) (h : Handshake)
  /-- src/peer/mod.rs:333 -/
  | sending (p : Peer) (m : Message)
  /-- src/peer/mod.rs:346 -/
  | received (p : Peer) (m : Message)
  /-- src/peer/mod.rs:406-409 -/
  | rejecting (piece : BitVec 32) (p : Peer)
  /-- src/peer/mod.rs:421-425 -/
  | gotMetadata (m : Magnet) (p : Peer)
  /-- src/dht/actor.rs:218 -/
  | querySendFailed (addr : SockAddr)
  /-- src/dht/actor.rs:238, 243, 258 -/
  | dhtIgnored (n : Fin 3) (addr : SockAddr)
  /-- src/dht/actor.rs:453-458 -/
  | nodeReplied (addr : SockAddr) (known : Option Node) (r : GetPeersResponse) (h : InfoHash)
  /-- src/dht/actor.rs:474 -/
  | nodeError (addr : SockAddr) (known : Option Node) (e : ErrorResponse)
  /-- src/dht/actor.rs:476 -/
  | nodeInvalid (addr : SockAddr) (known : Option Node) (e : ResponseError)
  /-- src/dht/actor.rs:491 -/
  | nodeTimeout (addr : SockAddr) (known : Option Node)
  /-- src/dht/actor.rs:517-520 -/
  | nodeQuery (addr : SockAddr) (known : Option Node) (h : InfoHash)
  /-- src/dht/actor.rs:550-554 -/
  | dhtFound (ps : List Peer) (h : InfoHash)

/-- The word for an event in src/tracker/mod.rs:163, 184. -/
def eventWord : AnnounceEvent → Text
  | .stopped => "stopped".toList
  | _ => "started".toList

/-- src/tracker/udp.rs:135, 156, 169, 186, 202: the steps of a conversation with the tracker shown as `t`. -/
def udpStepText (n : Fin 5) (t : Text) : Text :=
  match n with
  | 0 => "Connection to ".toList ++ t ++ " timed out; restarting".toList
  | 1 => "Connection to ".toList ++ t ++ " expired; will reconnect".toList
  | 2 => "Sending connection request to ".toList ++ t
  | 3 => "Connected to ".toList ++ t
  | _ => t ++ " did not reply in time; resending message".toList

/-- src/peer/mod.rs:215-237, src/peer/msepe.rs:203, 451-454: the steps of a conversation with the peer shown as `t`. -/
def peerStepText (n : Fin 6) (t : Text) : Text :=
  match n with
  | 0 => "Connecting to ".toList ++ t
  | 1 => "Connected to ".toList ++ t
  | 2 => "Encrypting connection to ".toList ++ t ++ " ...".toList
  | 3 => "Sending handshake to ".toList ++ t
  | 4 => "Encryption handshake with ".toList ++ t ++ " complete".toList
  | _ => "Finished receiving encryption handshake packet 2 from ".toList ++ t

/-- src/dht/actor.rs:238, 243, 258: datagrams that are ignored, from the address shown as `t`. -/
def dhtIgnoredText (env : LogEnv) (n : Fin 3) (t : Text) : Text :=
  match n with
  | 0 => "Received invalid DHT message from ".toList ++ t ++ ": ".toList ++ env.bendy.message ++ "; ignoring".toList
  | 1 => "Received DHT query message from ".toList ++ t ++ "; ignoring".toList
  | _ => "Received unexpected DHT message from ".toList ++ t ++ "; ignoring".toList

/-- The texts of the messages.  (A torrent is named by its info hash alone in commands that know no magnet link: a `Magnet` without a name.)
The prefix with time and level (src/main.rs:385-410) is not modelled. -/
def LogLine.text (env : LogEnv) : LogLine → Text
  | .fetching m => "Fetching metadata info for ".toList ++ m.text env.plain
  | .trackerFailed t m e => "Error communicating with ".toList ++ t.text ++ " for ".toList ++ m.text env.plain ++ ": ".toList ++
      errorChain (getterErr env e)
  | .peerFailed m p e mse => "Failed to fetch info for ".toList ++ m.text env.plain ++ " from ".toList ++ p.text ++ ": ".toList ++
      errorChain (e.err env mse)
  | .badMagnets e => "Error reading magnets file: ".toList ++ errorChain (e.err env)
  | .batchFailed m e => "Failed to download torrent file for ".toList ++ m.text env.plain ++ ": ".toList ++ errorChain (e.err env)
  | .getFailed e => "Failed to download torrent file: ".toList ++ errorChain (e.err env)
  | .queryFailed e => "Error communicating with tracker: ".toList ++ errorChain (getterErr env e)
  | .fetchFailed e mse => "Failed to fetch info from peer: ".toList ++ errorChain (e.err env mse)
  | .requestingPeers m t => "Requesting peers for ".toList ++ m.text env.plain ++ " from ".toList ++ t.text
  | .returnedCount t m ps => t.text ++ " returned ".toList ++ decimal ps.length ++ " peers for ".toList ++ m.text env.plain
  | .returned t m ps => t.text ++ " returned peers for ".toList ++ m.text env.plain ++ ": ".toList ++
      commaList (ps.map Peer.text)
  | .stopCancelled t m => "\"stopped\" announcement to ".toList ++ t.text ++ " for ".toList ++ m.text env.plain ++
      " cancelled".toList
  | .stopFailed t m e => "failure sending \"stopped\" announcement to ".toList ++ t.text ++ " for ".toList ++
      m.text env.plain ++ ": ".toList ++ errorChain (e.err env)
  | .announcing e t m => "Sending \"".toList ++ eventWord e ++ "\" announcement to ".toList ++ t.text ++ " for ".toList ++
      m.text env.plain
  | .warned t m msg => t.text ++ " replied with warning in response to ".toList ++ m.text env.plain ++
      " announcement: ".toList ++ debugText env.plain msg
  | .udpStep n u => udpStepText n ((Tracker.udp u).text)
  | .udpConnected u addr => "Connected UDP socket to ".toList ++ u.host ++ " (IP address: ".toList ++ ipText addr.ip ++ "), port ".toList ++
      decimal u.port.toNat
  | .requestingInfo m p => "Requesting info for ".toList ++ m.text env.plain ++ " from ".toList ++ p.text
  | .encryptionFailed p mse => "Encryption handshake with ".toList ++ p.text ++ " failed: ".toList ++ errorChain (mse.err env) ++
      "; will try unencrypted connection".toList
  | .peerStep n p => peerStepText n p.text
  | .selected p c => p.text ++ " selected encryption method ".toList ++ c.debug
  | .sendingPacket n p => "Sending encryption handshake packet ".toList ++ decimal n ++ " to ".toList ++ p.text
  | .gotHandshake p h => p.text ++ " sent ".toList ++ h.text
  | .sending p m => "Sending to ".toList ++ p.text ++ ": ".toList ++ m.text env.plain
  | .received p m => p.text ++ " sent message: ".toList ++ m.text env.plain
  | .rejecting i p => "Rejecting request for metadata info piece ".toList ++ decimal i.toNat ++ " from ".toList ++ p.text
  | .gotMetadata m p => "Metadata for ".toList ++ m.text env.plain ++ " received from ".toList ++ p.text
  | .querySendFailed a => "Failed to send DHT message to ".toList ++ sockText a ++ ": ".toList ++ env.io.message
  | .dhtIgnored n a => dhtIgnoredText env n (sockText a)
  | .nodeReplied a k r h => nodeDisplay a k ++ " replied with ".toList ++ decimal r.values.length ++ " peer(s) and ".toList ++
      decimal (r.nodes.length + r.nodes6.length) ++ " node(s) for info hash ".toList ++ h.displayText
  | .nodeError a k e => nodeDisplay a k ++ " replied with error message: ".toList ++ e.text env.plain
  | .nodeInvalid a k e => nodeDisplay a k ++ " sent invalid reply message: ".toList ++ errorChain (e.err env)
  | .nodeTimeout a k => "Query to ".toList ++ nodeDisplay a k ++ " timed out".toList
  | .nodeQuery a k h => "Sending \"get_peers\" query to ".toList ++ nodeDisplay a k ++ " for info hash ".toList ++ h.displayText
  | .dhtFound ps h => "Found ".toList ++ decimal ps.length ++ " peers for ".toList ++ h.displayText ++ " on the DHT".toList

/-- What the log says of a conversation with a peer (src/peer/mod.rs:237, 250, 333, 346). -/
def Event.logLine (p : Peer) : Event → LogLine
  | .sentHandshake _ => .peerStep 3 p
  | .gotHandshake h => .gotHandshake p h
  | .sent m => .sending p m
  | .received m => .received p m

/-- What the log says of the answer of a node to a query (src/dht/actor.rs:447-477). -/
def replyLine (s : LookupSession) (sender : SockAddr) (msg : Bytes) : LogLine :=
  match decodeResponse lossyUtf8 msg with
  | .ok r => .nodeReplied sender (HMap.get s.nodes.addr2node sender) r s.nodes.infoHash
  | .error (.rpc e) => .nodeError sender (HMap.get s.nodes.addr2node sender) e
  | .error e => .nodeInvalid sender (HMap.get s.nodes.addr2node sender) e

/-- src/torrent.rs:157-168: what the log says before the file is written.  (`query-peer` knows only the info hash of `m`.) -/
def savingText (plain : Char → Bool) (m : Magnet) : Output → Text
  | .stdout => "Writing torrent for info hash ".toList ++ m.text plain ++ " to stdout".toList
  | .file p => "Saving torrent for info hash ".toList ++ m.text plain ++ " to file ".toList ++ p

/-- The trackers a message names (the log statements of src/tracker/mod.rs, src/tracker/udp.rs and src/magnet.rs: the formats that take a tracker or its URL). -/
def LogLine.trackers : LogLine → List Tracker
  | .trackerFailed t _ _ | .requestingPeers _ t | .returnedCount t _ _ | .returned t _ _ | .stopCancelled t _ | .stopFailed t _ _
  | .announcing _ t _ | .warned t _ _ => [t]
  | .udpStep _ u | .udpConnected u _ => [.udp u]
  | _ => []

end Demag
