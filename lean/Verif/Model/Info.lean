import Verif.Model.Bencode
import Verif.Model.InfoHash

/-!
# Torrent metadata and files: the model of `/repo/src/torrent.rs` (path templates are in `Model/Template.lean`)

The digest SHA-1 (crate `sha1`) is a parameter `sha1` of the functions that use it; the theorems hold for every function.
-/

namespace Demag

open Spec (Ben)

/-- src/torrent.rs:396-406 `BencodeDictError`. -/
inductive BencodeDictError where
  | syntaxError
  | notADict
  | empty
  | trailing
  deriving DecidableEq, Repr

/-- src/torrent.rs:330-346 `check_bencode_dict`.  The first `next_object` looks only at the first token: a list is
recognised by its `l` alone (and rejected before its contents are read), integers and strings are read
completely. -/
def checkBencodeDict (buf : Bytes) : Except BencodeDictError Unit :=
  match buf with
  | [] => .error .empty
  | c :: cs =>
    if c = 100 then
      match parseObject bendyDefaultDepth buf with
      | none => .error .syntaxError
      | some (_, rest) => if rest.isEmpty then .ok () else .error .trailing
    else if c = 108 then .error .notADict
    else if c = 105 then
      if (parseIntBody cs).isSome then .error .notADict else .error .syntaxError
    else
      if (parseBytes buf).isSome then .error .notADict else .error .syntaxError

/-! ### Collecting the metadata -/

/-- src/torrent.rs:21-25 `TorrentInfo`. -/
structure TorrentInfo where
  infoHash : InfoHash
  data : Bytes
  deriving DecidableEq

/-- src/torrent.rs:50-57 `TorrentInfoBuilder`.  `hasher` is the input fed to the SHA-1 state so far; the peekable range
`index_iter` is the pair `lo..hi` of the indices not yet taken. -/
structure TorrentInfoBuilder where
  infoHash : InfoHash
  hasher : Bytes
  data : Bytes
  sizes : List Nat
  lo : Nat
  hi : Nat
  deriving DecidableEq

/-- src/torrent.rs:60 `PIECE_LENGTH`. -/
def pieceLength : Nat := 16 <<< 10

/-- src/consts.rs:15 `MAX_INFO_LENGTH`. -/
def maxInfoLength : Nat := 20 <<< 20

/-- src/torrent.rs:368-372 `ConstructError`; `panic` is the `expect` of line 76. -/
inductive ConstructError where
  | tooLarge (n : BitVec 32)
  | panic
  deriving DecidableEq

/-- src/torrent.rs:374-384 `PushError`; `panic` is the indexing `self.sizes[index]` out of range. -/
inductive PushError where
  | tooManyPieces
  | length (index expected got : Nat)
  | panic
  deriving DecidableEq

/-- src/torrent.rs:386-394 `BuildError`. -/
inductive BuildError where
  | bencode (e : BencodeDictError)
  | notFinished (left : Nat)
  | digest (expected : InfoHash) (got : Bytes)

/-- src/torrent.rs:69-73: the piece sizes. -/
def pieceSizes (length : Nat) : List Nat :=
  let sizes := List.replicate (length / pieceLength) pieceLength
  let overflow := length % pieceLength
  if overflow > 0 then sizes ++ [overflow] else sizes

/-- src/torrent.rs:62-84 `TorrentInfoBuilder::new`.  `usize` has at least 32 bits, so the first conversion
succeeds. -/
def TorrentInfoBuilder.new (infoHash : InfoHash) (length : BitVec 32) : Except ConstructError TorrentInfoBuilder :=
  if length.toNat > maxInfoLength then .error (.tooLarge length)
  else
    let sizes := pieceSizes length.toNat
    if sizes.length < 2 ^ 32 then
      .ok { infoHash, hasher := [], data := [], sizes, lo := 0, hi := sizes.length }
    else .error .panic

/-- src/torrent.rs:86-101 `TorrentInfoBuilder::push`: the builder afterwards (the index is consumed even if the length
is wrong) and the result. -/
def TorrentInfoBuilder.push (b : TorrentInfoBuilder) (piece : Bytes) :
    TorrentInfoBuilder × Except PushError Unit :=
  if b.lo < b.hi then
    let index := b.lo
    let b := { b with lo := b.lo + 1 }
    match b.sizes[index]? with
    | none => (b, .error .panic)
    | some size =>
      if piece.length ≠ size then (b, .error (.length index size piece.length))
      else ({ b with hasher := b.hasher ++ piece, data := b.data ++ piece }, .ok ())
  else (b, .error .tooManyPieces)

/-- src/torrent.rs:103-105 `TorrentInfoBuilder::next_piece`. -/
def TorrentInfoBuilder.nextPiece (b : TorrentInfoBuilder) : Option Nat :=
  if b.lo < b.hi then some b.lo else none

/-- src/torrent.rs:107-127 `TorrentInfoBuilder::build`. -/
def TorrentInfoBuilder.build (sha1 : Bytes → Bytes) (b : TorrentInfoBuilder) : Except BuildError TorrentInfo :=
  let left := b.hi - b.lo
  if left > 0 then .error (.notFinished left)
  else
    let gotHash := sha1 b.hasher
    if gotHash ≠ b.infoHash.bytes then .error (.digest b.infoHash gotHash)
    else
      match checkBencodeDict b.data with
      | .error e => .error (.bencode e)
      | .ok () => .ok { infoHash := b.infoHash, data := b.data }

/-- src/torrent.rs:28-42 `TorrentInfo::name`; the outer `none` is a panic (`unreachable!` or `expect`).
`lossy` is `String::from_utf8_lossy` (std).  For data accepted by `check_bencode_dict` the dictionary is parsed
completely; the only other way out of the loop is the end of the dictionary. -/
def TorrentInfo.name (lossy : Bytes → Text) (info : TorrentInfo) : Option (Option Text) :=
  match parseObject bendyDefaultDepth info.data with
  | some (.dict kvs, _) =>
    match kvs.find? (fun kv => kv.1 = [110, 97, 109, 101]) with
    | some (_, .bytes b) => some (some (lossy b))
    | some _ => some none
    | none => some none
  | _ => none

/-! ### The torrent file -/

/-- src/torrent.rs:130-137 `TorrentFile`.  A tracker is represented by its `url_string()`. -/
structure TorrentFile where
  info : TorrentInfo
  trackers : List Text
  nodes : List SockAddr
  creationDate : BitVec 64
  createdBy : Text

/-- src/consts.rs:27 `CLIENT`. -/
def client : Text := "demagnetize 0.7.0".toList

/-- src/torrent.rs:348-353 `unix_now`: `.ok d` is the time `d` seconds after the epoch, `.error d` that many seconds
before it. -/
def unixNow : Except Nat Nat → BitVec 64
  | .ok secs => if secs < 2 ^ 63 then BitVec.ofNat 64 secs else BitVec.ofInt 64 (2 ^ 63 - 1)
  | .error secs => if secs < 2 ^ 63 then BitVec.ofInt 64 (-(secs : Int)) else BitVec.ofInt 64 (-2 ^ 63)

/-- src/torrent.rs:140-152 `TorrentFile::new`; `now` is the system clock. -/
def TorrentFile.new (now : Except Nat Nat) (info : TorrentInfo) (trackers : List Text) (nodes : List SockAddr) :
    TorrentFile :=
  { trackers, nodes, createdBy := client, creationDate := unixNow now, info }

/-- `SocketAddr::ip` (std). -/
def SockAddr.ip : SockAddr → IpAddr
  | .v4 a => .v4 a.ip
  | .v6 a => .v6 a.ip

/-- `SocketAddr::port` (std). -/
def SockAddr.port : SockAddr → BitVec 16
  | .v4 a => a.port
  | .v6 a => a.port

/-- src/torrent.rs:315-328 `NodeAddr::encode`; `ipText` is `IpAddr::to_string` (std). -/
def encodeNodeAddr (ipText : IpAddr → Text) (a : SockAddr) : Bytes :=
  emitList [emitBytes (utf8 (ipText a.ip)), emitNat a.port.toNat]

/-- src/torrent.rs:179-193 `put_kv!`: the key and the value are written one after the other. -/
def putKv (key : String) (value : Bytes) : Bytes := emitBytes (utf8 key.toList) ++ value

/-- src/torrent.rs:195-229 `From<TorrentFile> for Bytes`. -/
def TorrentFile.toBytes (ipText : IpAddr → Text) (t : TorrentFile) : Bytes :=
  [100] ++
  (if t.trackers.isEmpty then []
   else putKv "announce-list" (emitList (t.trackers.map fun tr => emitList [emitBytes (utf8 tr)]))) ++
  putKv "created by" (emitBytes (utf8 t.createdBy)) ++
  putKv "creation date" (emitInt t.creationDate.toInt) ++
  emitBytes (utf8 "info".toList) ++ t.info.data ++
  (if t.nodes.isEmpty then [] else putKv "nodes" (emitList (t.nodes.map (encodeNodeAddr ipText)))) ++
  [101]

end Demag
