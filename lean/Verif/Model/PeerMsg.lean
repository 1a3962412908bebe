import Verif.Model.PeerExt
import Verif.Model.Compact
import Verif.Model.InfoHash

/-!
# Peer wire messages: the model of `/repo/src/peer/messages.rs`
-/

namespace Demag

open Spec (Ben)

/-- src/peer/messages.rs:15 `HANDSHAKE_HEADER`. -/
def handshakeHeader : Bytes := 0x13 :: "BitTorrent protocol".toList.map fun c => UInt8.ofNat c.toNat

/-- src/peer/messages.rs:17-21 `Handshake`. -/
structure Handshake where
  extensions : ExtensionSet
  infoHash : InfoHash
  peerId : PeerId
  deriving DecidableEq

/-- src/peer/messages.rs:26-35 `Handshake::new`. -/
def Handshake.new (es : List Extension) (ih : InfoHash) (pid : PeerId) : Handshake :=
  ⟨ExtensionSet.fromIter es, ih, pid⟩

/-- src/peer/messages.rs:48-57 `From<Handshake> for Bytes`. -/
def Handshake.encode (s : Handshake) : Bytes :=
  handshakeHeader ++ putU64 s.extensions.bits ++ s.infoHash.bytes ++ s.peerId.bytes

/-- src/peer/messages.rs:80-86 `HandshakeError`. -/
inductive HandshakeError where
  | invalidHeader
  | length (e : PacketError)
  deriving DecidableEq, Repr

/-- src/peer/messages.rs:59-78 `TryFrom<Bytes> for Handshake`. -/
def Handshake.decode (buf : Bytes) : Except HandshakeError Handshake := do
  let (header, buf) ← (tryGetBytes 20 buf).mapError .length
  if header ≠ handshakeHeader then .error .invalidHeader
  else do
    let (ext, buf) ← (tryGet (BitVec 64) buf).mapError .length
    let (ih, buf) ← (tryGetInfoHash buf).mapError .length
    let (pid, buf) ← (tryGetPeerId buf).mapError .length
    let _ ← (eof buf).mapError .length
    return ⟨⟨ext⟩, ih, pid⟩

/-- src/peer/messages.rs:143-166 `CoreMessage`. -/
inductive CoreMessage where
  | keepalive
  | choke
  | unchoke
  | interested
  | notInterested
  | have' (piece : BitVec 32)
  | bitfield (bs : Bytes)
  | request (index begin length : BitVec 32)
  | piece (index begin : BitVec 32) (data : Bytes)
  | cancel (index begin length : BitVec 32)
  | port (port : BitVec 16)
  | suggest (index : BitVec 32)
  | haveAll
  | haveNone
  | reject (index begin length : BitVec 32)
  | allowedFast (index : BitVec 32)
  | extended (msgId : BitVec 8) (payload : Bytes)
  deriving DecidableEq, Repr

/-- src/peer/messages.rs:169-186 `CoreMessage::can_be_ignored`. -/
def CoreMessage.canBeIgnored : CoreMessage → Bool
  | .keepalive | .choke | .unchoke | .interested | .notInterested | .have' _ | .bitfield _ | .piece .. | .haveAll
  | .haveNone | .allowedFast _ | .suggest _ => true
  | _ => false

/-- src/peer/messages.rs:234-329 `From<CoreMessage> for Bytes`. -/
def CoreMessage.encode : CoreMessage → Bytes
  | .keepalive => []
  | .choke => [0]
  | .unchoke => [1]
  | .interested => [2]
  | .notInterested => [3]
  | .have' p => putU8 4 ++ putU32 p
  | .bitfield b => putU8 5 ++ b
  | .request i b l => putU8 6 ++ putU32 i ++ putU32 b ++ putU32 l
  | .piece i b d => putU8 7 ++ putU32 i ++ putU32 b ++ d
  | .cancel i b l => putU8 8 ++ putU32 i ++ putU32 b ++ putU32 l
  | .port p => putU8 9 ++ putU16 p
  | .suggest i => putU8 0x0D ++ putU32 i
  | .haveAll => [0x0E]
  | .haveNone => [0x0F]
  | .reject i b l => putU8 0x10 ++ putU32 i ++ putU32 b ++ putU32 l
  | .allowedFast i => putU8 0x11 ++ putU32 i
  | .extended m p => putU8 0x14 ++ putU8 m ++ p

/-- src/peer/messages.rs:805-817 `MessageError`. -/
inductive MessageError where
  | unknown (t : BitVec 8)
  | length (t : BitVec 8) (e : PacketError)
  | unknownExtended (id : BitVec 8)
  | extendedHandshake (e : UnbencodeError)
  | metadata (e : UnbencodeError)
  deriving DecidableEq, Repr

/-- src/peer/messages.rs:331-435 `TryFrom<Bytes> for CoreMessage`. -/
def CoreMessage.decode (buf : Bytes) : Except MessageError CoreMessage :=
  match tryGet (BitVec 8) buf with
  | .error _ => .ok .keepalive
  | .ok (t, buf) =>
    let getU32 (buf : Bytes) : Except MessageError (BitVec 32 × Bytes) :=
      (tryGet (BitVec 32) buf).mapError (.length t)
    let eof' (buf : Bytes) : Except MessageError Unit := (eof buf).mapError (.length t)
    match t.toNat with
    | 0 => do let _ ← eof' buf; return .choke
    | 1 => do let _ ← eof' buf; return .unchoke
    | 2 => do let _ ← eof' buf; return .interested
    | 3 => do let _ ← eof' buf; return .notInterested
    | 4 => do
      let (p, buf) ← getU32 buf
      let _ ← eof' buf
      return .have' p
    | 5 => .ok (.bitfield buf)
    | 6 => do
      let (i, buf) ← getU32 buf
      let (b, buf) ← getU32 buf
      let (l, buf) ← getU32 buf
      let _ ← eof' buf
      return .request i b l
    | 7 => do
      let (i, buf) ← getU32 buf
      let (b, buf) ← getU32 buf
      return .piece i b buf
    | 8 => do
      let (i, buf) ← getU32 buf
      let (b, buf) ← getU32 buf
      let (l, buf) ← getU32 buf
      let _ ← eof' buf
      return .cancel i b l
    | 9 => do
      let (p, buf) ← (tryGet (BitVec 16) buf).mapError (.length t)
      let _ ← eof' buf
      return .port p
    | 0x0D => do
      let (i, buf) ← getU32 buf
      let _ ← eof' buf
      return .suggest i
    | 0x0E => do let _ ← eof' buf; return .haveAll
    | 0x0F => do let _ ← eof' buf; return .haveNone
    | 0x10 => do
      let (i, buf) ← getU32 buf
      let (b, buf) ← getU32 buf
      let (l, buf) ← getU32 buf
      let _ ← eof' buf
      return .reject i b l
    | 0x11 => do
      let (i, buf) ← getU32 buf
      let _ ← eof' buf
      return .allowedFast i
    | 0x14 => do
      let (m, buf) ← (tryGet (BitVec 8) buf).mapError (.length t)
      return .extended m buf
    | _ => .error (.unknown t)

/-! ### Extended handshake -/

/-- Literal keys (`b"..."`). -/
def key (s : String) : Bytes := s.toList.map fun c => UInt8.ofNat c.toNat

/-- src/peer/messages.rs:497-504 `ExtendedHandshake`.  `m` lists the entries of the `BTreeMap` in key order. -/
structure ExtendedHandshake where
  e : Option Bool := none
  m : Option (List (Text × BitVec 8)) := none
  v : Option Text := none
  metadataSize : Option (BitVec 32) := none
  yourip : Option IpAddr := none
  deriving DecidableEq

/-- bendy `BTreeMap<String, u8>::encode`: the entries in key order. -/
def emitTextMap (m : List (Text × BitVec 8)) : Option Bytes :=
  emitDict (m.map fun kv => (utf8 kv.1, emitNat kv.2.toNat))

/-- The pair emitted for an optional field. -/
def optPair {α : Type} (k : String) (f : α → Bytes) : Option α → List (Bytes × Bytes)
  | none => []
  | some x => [(key k, f x)]

/-- src/peer/messages.rs:553-557, 567-590 `From<ExtendedHandshake> for Bytes` via `ToBencode`; `none` is the panic of
`expect("Bencoding should not fail")`. -/
def ExtendedHandshake.encode (s : ExtendedHandshake) : Option Bytes := do
  let mpair ← match s.m with
    | none => some []
    | some m => do
      let b ← emitTextMap m
      some [(key "m", b)]
  emitDict (
    optPair "e" (fun b : Bool => emitNat b.toNat) s.e ++
    mpair ++
    optPair "metadata_size" (fun n : BitVec 32 => emitNat n.toNat) s.metadataSize ++
    optPair "v" (fun t => emitBytes (utf8 t)) s.v ++
    optPair "yourip" (fun ip => emitBytes (ipToCompact ip)) s.yourip)

/-- bendy `BTreeMap<String, u8>::decode_bencode_object`. -/
def benTextMap : Ben → Option (List (Text × BitVec 8))
  | .dict kvs => kvs.foldlM (init := []) fun m kv => do
      let k ← fromUtf8 kv.1
      let v ← benUint 8 kv.2
      some (btreeInsert m k v)
  | _ => none

/-- src/peer/messages.rs:829-837 `from_compact_ip`. -/
def fromCompactIp (b : Bytes) : Option IpAddr :=
  if b.length = 4 then some (.v4 ⟨BitVec.ofNat 32 (beAccum b)⟩)
  else if b.length = 16 then some (.v6 ⟨BitVec.ofNat 128 (beAccum b)⟩)
  else none

/-- src/peer/messages.rs:600-625: one iteration of the `while let Some(kv)` loop. -/
def ExtendedHandshake.readPair (s : ExtendedHandshake) (kv : Bytes × Ben) : Option ExtendedHandshake :=
  if kv.1 = key "e" then do
    let x ← benUint 8 kv.2
    some { s with e := some (x != 0) }
  else if kv.1 = key "m" then do
    let x ← benTextMap kv.2
    some { s with m := some x }
  else if kv.1 = key "v" then do
    let x ← benText kv.2
    some { s with v := some x }
  else if kv.1 = key "metadata_size" then do
    let x ← benUint 32 kv.2
    some { s with metadataSize := some x }
  else if kv.1 = key "yourip" then do
    let x ← benBytes kv.2
    let ip ← fromCompactIp x
    some { s with yourip := some ip }
  else some s

/-- src/peer/messages.rs:592-634 `ExtendedHandshake::decode_bencode_object`. -/
def ExtendedHandshake.ofBen (v : Ben) : Option ExtendedHandshake := do
  let kvs ← benDict v
  kvs.foldlM ExtendedHandshake.readPair {}

/-- src/peer/messages.rs:559-565 `TryFrom<Bytes> for ExtendedHandshake`.  `ExtendedHandshake` does not set
`EXPECTED_RECURSION_DEPTH`, so bendy's default applies. -/
def ExtendedHandshake.decode (buf : Bytes) : Except MessageError ExtendedHandshake :=
  (decodeBencode bendyDefaultDepth ExtendedHandshake.ofBen buf).mapError .extendedHandshake

/-- src/peer/messages.rs:507-512 `ExtendedHandshake::into_bep10_registry`. -/
def ExtendedHandshake.intoRegistry (s : ExtendedHandshake) :
    Except (RegistryError Bep10Extension) Bep10Registry :=
  match s.m with
  | some m => RegistryOf.fromM Bep10Extension.fromStr m
  | none => .ok .new

/-! ### Metadata messages -/

/-- src/peer/messages.rs:636-653 `MetadataMessage`. -/
inductive MetadataMessage where
  | request (piece : BitVec 32)
  | data (piece totalSize : BitVec 32) (payload : Bytes)
  | reject (piece : BitVec 32)
  | unknown (msgType : BitVec 8)
  deriving DecidableEq, Repr

/-- src/peer/messages.rs:656-658 `MetadataMessage::can_be_ignored`. -/
def MetadataMessage.canBeIgnored : MetadataMessage → Bool
  | .unknown _ => true
  | _ => false

/-- src/peer/messages.rs:682-716 `From<MetadataMessage> for Bytes`; `none` is the panic of the `expect`s. -/
def MetadataMessage.encode : MetadataMessage → Option Bytes
  | .request p => emitDict [(key "msg_type", emitNat 0), (key "piece", emitNat p.toNat)]
  | .data p t payload => do
    let d ← emitDict [(key "msg_type", emitNat 1), (key "piece", emitNat p.toNat), (key "total_size", emitNat t.toNat)]
    some (d ++ payload)
  | .reject p => emitDict [(key "msg_type", emitNat 2), (key "piece", emitNat p.toNat)]
  | .unknown t => emitDict [(key "msg_type", emitNat t.toNat)]

/-- src/peer/messages.rs:731-733: the variables of the loop. -/
structure MetadataFields where
  msgType : Option (BitVec 8) := none
  piece : Option (BitVec 32) := none
  totalSize : Option (BitVec 32) := none

/-- src/peer/messages.rs:734-759: one iteration of the loop. -/
def MetadataFields.readPair (s : MetadataFields) (kv : Bytes × Ben) : Option MetadataFields :=
  if kv.1 = key "msg_type" then do
    let x ← benUint 8 kv.2
    some { s with msgType := some x }
  else if kv.1 = key "piece" then do
    let x ← benUint 32 kv.2
    some { s with piece := some x }
  else if kv.1 = key "total_size" then do
    let x ← benUint 32 kv.2
    some { s with totalSize := some x }
  else some s

/-- src/peer/messages.rs:718-803 `TryFrom<Bytes> for MetadataMessage`. -/
def MetadataMessage.decode (buf : Bytes) : Except MessageError MetadataMessage :=
  if buf.isEmpty then .error (.metadata .noData)
  else
    match parseObject 2 buf with
    | some (.dict kvs, rest) =>
      match kvs.foldlM MetadataFields.readPair {} with
      | none => .error (.metadata .bendy)
      | some f =>
        match f.msgType, f.piece with
        | none, _ => .error (.metadata .bendy)
        | _, none => .error (.metadata .bendy)
        | some msgType, some piece =>
          let dictLen := buf.length - rest.length
          if msgType = 0 then
            if rest.isEmpty then .ok (.request piece) else .error (.metadata .trailingData)
          else if msgType = 1 then
            match f.totalSize with
            | none => .error (.metadata .bendy)
            | some totalSize => .ok (.data piece totalSize (buf.drop dictLen))
          else if msgType = 2 then
            if rest.isEmpty then .ok (.reject piece) else .error (.metadata .trailingData)
          else .ok (.unknown msgType)
    | _ => .error (.metadata .bendy)

/-! ### Messages -/

/-- src/peer/messages.rs:437-441 `ExtendedMessage`. -/
inductive ExtendedMessage where
  | handshake (s : ExtendedHandshake)
  | metadata (m : MetadataMessage)
  deriving DecidableEq

/-- src/peer/messages.rs:444-462 `ExtendedMessage::decode`. -/
def ExtendedMessage.decode (msgId : BitVec 8) (payload : Bytes) (registry : Bep10Registry) :
    Except MessageError ExtendedMessage :=
  if msgId = 0 then do
    let s ← ExtendedHandshake.decode payload
    return .handshake s
  else
    match registry.forMessageId msgId with
    | none => .error (.unknownExtended msgId)
    | some .metadata => do
      let m ← MetadataMessage.decode payload
      return .metadata m

/-- src/peer/messages.rs:825-827 `MessageEncodeError`, and the panics of the encoders. -/
inductive MessageEncodeError where
  | notRegistered (e : Bep10Extension)
  | panic
  deriving DecidableEq, Repr

/-- src/peer/messages.rs:464-475 `ExtendedMessage::encode`. -/
def ExtendedMessage.encode (msg : ExtendedMessage) (registry : Bep10Registry) :
    Except MessageEncodeError (BitVec 8 × Bytes) :=
  match msg with
  | .handshake s =>
    match s.encode with
    | none => .error .panic
    | some b => .ok (0, b)
  | .metadata m =>
    match registry.getMessageId .metadata with
    | none => .error (.notRegistered .metadata)
    | some msgId =>
      match m.encode with
      | none => .error .panic
      | some b => .ok (msgId, b)

/-- src/peer/messages.rs:477-485 `ExtendedMessage::can_be_ignored`. -/
def ExtendedMessage.canBeIgnored : ExtendedMessage → Bool
  | .handshake _ => true
  | .metadata m => m.canBeIgnored

/-- src/peer/messages.rs:88-92 `Message`. -/
inductive Message where
  | core (m : CoreMessage)
  | extended (m : ExtendedMessage)
  deriving DecidableEq

/-- src/peer/messages.rs:95-102 `Message::decode`. -/
def Message.decode (buf : Bytes) (registry : Bep10Registry) : Except MessageError Message := do
  let m ← CoreMessage.decode buf
  match m with
  | .extended msgId payload => do
    let x ← ExtendedMessage.decode msgId payload registry
    return .extended x
  | m => return .core m

/-- src/peer/messages.rs:104-112 `Message::encode`. -/
def Message.encode (msg : Message) (registry : Bep10Registry) : Except MessageEncodeError Bytes :=
  match msg with
  | .core m => .ok m.encode
  | .extended m => do
    let (msgId, payload) ← m.encode registry
    return CoreMessage.encode (.extended msgId payload)

/-- src/peer/messages.rs:114-119 `Message::can_be_ignored`. -/
def Message.canBeIgnored : Message → Bool
  | .core m => m.canBeIgnored
  | .extended m => m.canBeIgnored

end Demag
