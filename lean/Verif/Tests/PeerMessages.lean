import Verif.Model.PeerMsg
import Verif.Model.LogText

/-!
# The unit tests of `/repo/src/peer/messages.rs`, run on the model

These are tests, not proofs of properties: they compare the model with the code on the inputs of the tests in `/repo`, which the code passes.
-/

namespace Demag.Tests

open Demag

/-- The infohash of the handshakes. -/
def shakeHash : InfoHash := ⟨key "k\xcb\xd4A\xd7\xa0\x88\xc6;\xa8\xf8\x82\xe3\x12\x91\xd3\x85\xa7\x96L", by decide +kernel⟩
/-- Printable ASCII. -/
def asciiPlain (c : Char) : Bool := 0x20 ≤ c.toNat ∧ c.toNat < 0x7F

def shakeBytes : Bytes :=
  key "\x13BitTorrent protocol\x00\x00\x00\x00\x00\x10" ++ key "\x00\x05k\xcb\xd4A\xd7\xa0\x88\xc6;\xa8\xf8\x82" ++
    key "\xe3\x12\x91\xd3\x85\xa7\x96L-TR3000-vfu1svh0ewb6"
def shakeValue : Handshake :=
  ⟨ExtensionSet.fromIter [.bep10, .fast, .dht], shakeHash, ⟨key "-TR3000-vfu1svh0ewb6", by decide +kernel⟩⟩
/-- src/peer/messages.rs:847-869 `test_handshake` -/
example : Handshake.decode shakeBytes = .ok shakeValue ∧ shakeValue.encode = shakeBytes ∧
    shakeValue.text = ("handshake (extensions: BEP 10 Extension Protocol, BitTorrent DHT, Fast Extension; peer ID: " ++
      "b\"-TR3000-vfu1svh0ewb6\")").toList := by decide +kernel

def shakeBytes2 : Bytes :=
  key "\x13BitTorrent protocol\x00\x00\x00\x00\x00\x18" ++ key "\x00\x05k\xcb\xd4A\xd7\xa0\x88\xc6;\xa8\xf8\x82" ++
    key "\xe3\x12\x91\xd3\x85\xa7\x96L-qB4360-5Ngjy9uIMl~O"
def shakeValue2 : Handshake := ⟨⟨0x180005⟩, shakeHash, ⟨key "-qB4360-5Ngjy9uIMl~O", by decide +kernel⟩⟩
/-- src/peer/messages.rs:871-890 `test_handshake_unknown_ext` -/
example : Handshake.decode shakeBytes2 = .ok shakeValue2 ∧ shakeValue2.encode = shakeBytes2 ∧
    shakeValue2.text = ("handshake (extensions: BEP 10 Extension Protocol, BitTorrent DHT, Fast Extension, Unknown(0x0000000000080000); peer ID: " ++
      "b\"-qB4360-5Ngjy9uIMl~O\")").toList := by decide +kernel

/-- src/peer/messages.rs:892-901 `test_haveall` -/
example : CoreMessage.decode [0x0E] = .ok .haveAll ∧ CoreMessage.text .haveAll = "have all".toList ∧
    CoreMessage.encode .haveAll = [0x0E] := by decide +kernel
/-- src/peer/messages.rs:903-912 `test_havenone` -/
example : CoreMessage.decode [0x0F] = .ok .haveNone ∧ CoreMessage.text .haveNone = "have none".toList ∧
    CoreMessage.encode .haveNone = [0x0F] := by decide +kernel
/-- src/peer/messages.rs:914-926 `test_port` -/
example : CoreMessage.decode [0x09, 0x88, 0xB7] = .ok (.port 34999) ∧ CoreMessage.text (.port 34999) = "DHT port: 34999".toList ∧
    CoreMessage.encode (.port 34999) = [0x09, 0x88, 0xB7] := by decide +kernel

def pexPayload : Bytes := key "d5:added12:V`\\\xe5\xc8\xd5\xb2\x9b\x8b\xa8\x88\xb77:added.f2:\x10\x10e"
/-- src/peer/messages.rs:928-945 `test_extended` -/
example : CoreMessage.decode (0x14 :: 0x01 :: pexPayload) = .ok (.extended 1 pexPayload) ∧
    CoreMessage.text (.extended 1 pexPayload) = "extended message (message ID 1)".toList ∧
    CoreMessage.encode (.extended 1 pexPayload) = 0x14 :: 0x01 :: pexPayload := by decide +kernel

def extendedBytes : Bytes :=
  key "\x14\x00d12:complete_agoi1441e1:" ++ key "md11:lt_donthavei7e10:share_modei8e11:upload_onl" ++
    key "yi3e12:ut_holepunchi4e11:ut_metadatai2e6:ut_pexi" ++ key "1ee13:metadata_sizei5436e4:reqqi500e11:upload_on" ++
    key "lyi1e1:v17:qBittorrent/4.3.66:yourip4:\x99\xa2D" ++ key "\x9be"
def extendedValue : ExtendedHandshake where
  m := some [("lt_donthave".toList, 7), ("share_mode".toList, 8), ("upload_only".toList, 3), ("ut_holepunch".toList, 4),
    ("ut_metadata".toList, 2), ("ut_pex".toList, 1)]
  v := some "qBittorrent/4.3.6".toList
  metadataSize := some 5436
  yourip := some (.v4 ⟨BitVec.ofNat 32 (((153 * 256 + 162) * 256 + 68) * 256 + 155)⟩)
/-- src/peer/messages.rs:947-988 `test_decode_extended_handshake` -/
example : Message.decode extendedBytes .new = .ok (.extended (.handshake extendedValue)) ∧
    (Message.extended (.handshake extendedValue)).text asciiPlain =
      ("extended handshake: extensions: \"lt_donthave\", \"share_mode\", \"upload_only\", \"ut_holepunch\", \"ut_metadata\", \"ut_pex\"; client: " ++
        "\"qBittorrent/4.3.6\"; metadata size: 5436; yourip: 153.162.68.155").toList ∧
    extendedValue.intoRegistry.toOption.map (fun r => (r.toCode, r.fromCode)) =
      some (let r := ((RegistryOf.new : Bep10Registry).register .metadata 2).1; (r.toCode, r.fromCode)) := by decide +kernel

def extendedBytesE : Bytes :=
  key "\x14\x00d1:ei1e1:md11:ut_metadatai2ee13:metadata" ++ key "_sizei5436e1:v15:A Client v1.2.36:yourip4:\x99" ++ key "\xa2D\x9be"
def extendedValueE : ExtendedHandshake where
  e := some true
  m := some [("ut_metadata".toList, 2)]
  v := some "A Client v1.2.3".toList
  metadataSize := some 5436
  yourip := some (.v4 ⟨BitVec.ofNat 32 (((153 * 256 + 162) * 256 + 68) * 256 + 155)⟩)
/-- src/peer/messages.rs:990-1021 `test_decode_extended_handshake_with_e` -/
example : Message.decode extendedBytesE .new = .ok (.extended (.handshake extendedValueE)) ∧
    (Message.extended (.handshake extendedValueE)).text asciiPlain =
      ("extended handshake: extensions: \"ut_metadata\"; prefers encryption; client: \"A Client v1.2.3\"; metadata size: 5436; " ++
        "yourip: 153.162.68.155").toList ∧
    extendedValueE.intoRegistry.toOption.map (fun r => (r.toCode, r.fromCode)) =
      some (let r := ((RegistryOf.new : Bep10Registry).register .metadata 2).1; (r.toCode, r.fromCode)) := by decide +kernel

/-- src/peer/messages.rs:1023-1039 `test_encode_extended_handshake` -/
example : (Message.extended (.handshake {
      e := some true
      m := some (((RegistryOf.new : Bep10Registry).register .metadata 23).1.toM Bep10Extension.display)
      v := some "omicron-torrent v1.2.3".toList
      yourip := some (.v4 ⟨0x7F000001#32⟩) })).encode .new =
    .ok (key "\x14\x00d1:ei1e1:md11:ut_metadatai23ee1:v22:omicron-torrent v1.2.36:yourip4:\x7F\x00\x00\x01e") := by decide +kernel

/-- A registry that knows metadata messages as 3. -/
def registry3 : Bep10Registry := ((RegistryOf.new : Bep10Registry).register .metadata 3).1

/-- src/peer/messages.rs:1041-1050 `test_metadata_request` -/
example : Message.decode (key "\x14\x03d8:msg_typei0e5:piecei0ee") registry3 = .ok (.extended (.metadata (.request 0))) ∧
    (Message.extended (.metadata (.request 0))).text asciiPlain = "metadata request: piece 0".toList ∧
    (Message.extended (.metadata (.request 0))).encode registry3 = .ok (key "\x14\x03d8:msg_typei0e5:piecei0ee") := by decide +kernel

def dataPayload : Bytes := key "d5:filesld6:lengthi267661684e4:pathl72:..."
/-- src/peer/messages.rs:1052-1071 `test_metadata_data` -/
example : Message.decode (key "\x14\x03d8:msg_typei1e5:piecei0e10:total_sizei5436ee" ++ dataPayload) registry3 =
      .ok (.extended (.metadata (.data 0 5436 dataPayload))) ∧
    (Message.extended (.metadata (.data 0 5436 dataPayload))).text asciiPlain =
      "metadata data: piece 0, total size 5436, payload size 42".toList ∧
    (Message.extended (.metadata (.data 0 5436 dataPayload))).encode registry3 =
      .ok (key "\x14\x03d8:msg_typei1e5:piecei0e10:total_sizei5436ee" ++ dataPayload) := by decide +kernel

end Demag.Tests
