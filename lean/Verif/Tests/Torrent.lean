import Verif.Model.Template
import Verif.Model.Utf8
import Verif.Model.IpParse
import Verif.Model.InfoHash
import Verif.Model.UrlParse
import Verif.Model.Settings
import Verif.Model.Download
import Verif.Model.Crypto

/-!
# The unit tests of `/repo/src/torrent.rs`, run on the model

These are tests, not proofs of properties: they compare the model with the code on the inputs of the tests in `/repo`, which the code passes.
(The texts of the errors of templates are not modelled.)
-/

namespace Demag.Tests

open Demag

/-- src/torrent.rs:415-419 `check_bencode_dict::good` -/
example : checkBencodeDict (key "d3:foo3:bar3:keyi42ee") = .ok () := by decide +kernel
/-- src/torrent.rs:421-425 `check_bencode_dict::invalid_bencode` -/
example : checkBencodeDict (key "d3:keyi42e8:no valuee") = .error .syntaxError := by decide +kernel
/-- src/torrent.rs:427-431 `check_bencode_dict::non_dict` -/
example : checkBencodeDict (key "l3:keyi42e8:no valuee") = .error .notADict := by decide +kernel
/-- src/torrent.rs:433-437 `check_bencode_dict::empty` -/
example : checkBencodeDict (key "") = .error .empty := by decide +kernel
/-- src/torrent.rs:439-443 `check_bencode_dict::trailing_bencode` -/
example : checkBencodeDict (key "d3:foo3:bar3:keyi42ee5:extra") = .error .trailing := by decide +kernel

/-- The infohash of the builder. -/
def builderHash : InfoHash := ⟨[0xfd, 0x33, 0x56, 0x04, 0x57, 0xea, 0xe4, 0xb1, 0x65, 0xbc, 0x5e, 0x7f, 0x7d, 0xe6, 0xf2, 0x4d, 0xb6, 0x1e, 0x95, 0x7e], by decide⟩
/-- What the pieces of the test are pushed to, and what is asked for next after each of them. -/
def pushAll (b : TorrentInfoBuilder) : List Bytes → List (Option Nat) → Option (TorrentInfoBuilder × List (Option Nat))
  | [], asked => some (b, asked ++ [b.nextPiece])
  | p :: ps, asked => match b.push p with
    | (b', .ok ()) => pushAll b' ps (asked ++ [b.nextPiece])
    | (_, .error _) => none
def builderPieces : List Bytes :=
  [key "d4:name15:My Test Torrent11:xtra-filler40914:" ++ List.replicate 16339 0, List.replicate (16 <<< 10) 0,
    List.replicate ((8 <<< 10) - 1) 0 ++ [101]]
/-- src/torrent.rs:446-468 `test_torrent_info_builder`; the kernel is not made to compute the SHA-1 hash of the 40 KiB, that is
left to the `#guard` after it. -/
example : InfoHash.fromStr (key "fd33560457eae4b165bc5e7f7de6f24db61e957e") = .ok builderHash ∧
    ((TorrentInfoBuilder.new builderHash (40 <<< 10)).toOption.bind fun b => pushAll b builderPieces []).map (fun r =>
      (r.2, (r.1.build fun _ => builderHash.bytes).toOption.map (TorrentInfo.name lossyUtf8))) =
    some ([some 0, some 1, some 2, none], some (some (some "My Test Torrent".toList))) := by decide +kernel
#guard sha1 builderPieces.flatten == builderHash.bytes

/-- `ddbf90f0d41c8f91a555192279845bc45e530ec9` -/
def fileHash : InfoHash := ⟨[0xdd, 0xbf, 0x90, 0xf0, 0xd4, 0x1c, 0x8f, 0x91, 0xa5, 0x55, 0x19, 0x22, 0x79, 0x84, 0x5b, 0xc4, 0x5e, 0x53, 0x0e, 0xc9], by decide⟩
def fileInfo : TorrentInfo :=
  ⟨fileHash, key "d6:lengthi42e4:name8:blob.dat12:piece lengthi65535e6:pieces20:00000000000000000000e"⟩
/-- Nothing but ASCII domain names is read, and no `file:` URLs. -/
def urlEnvFile : UrlEnv := ⟨true, fun _ => none, fun _ => none⟩
/-- The trackers of a torrent file. -/
def trackersAt (l : List String) : Option (List Text) :=
  allSome (l.map fun s => (Tracker.parse (urlParse urlEnvFile) s.toList).toOption.map Tracker.urlString)
def nodesAt (l : List String) : Option (List SockAddr) := allSome (l.map fun s => (sockFromStr s.toList).map (·.1))

/-- src/torrent.rs:470-495 `torrent_file_into_bytes` -/
example : ((trackersAt ["http://tracker.example.com:8080/announce", "udp://bits.example.net:9001"]).bind fun trs =>
      (nodesAt []).map fun nodes =>
        TorrentFile.toBytes ipText ⟨fileInfo, trs, nodes, 1686939764, "demagnetize vDEV".toList⟩) = some (
    key "d13:announce-listll40:http://tracker.example.com:8080/announceel27:udp://bits.example.net:" ++
    key "9001ee10:created by16:demagnetize vDEV13:creation datei1686939764e4:infod6:lengthi42e4:nam" ++
    key "e8:blob.dat12:piece lengthi65535e6:pieces20:00000000000000000000ee") := by decide +kernel
example : checkBencodeDict (
    key "d13:announce-listll40:http://tracker.example.com:8080/announceel27:udp://bits.example.net:" ++
    key "9001ee10:created by16:demagnetize vDEV13:creation datei1686939764e4:infod6:lengthi42e4:nam" ++
    key "e8:blob.dat12:piece lengthi65535e6:pieces20:00000000000000000000ee") = .ok () := by decide +kernel

/-- src/torrent.rs:497-517 `torrent_file_with_nodes_into_bytes` -/
example : ((trackersAt []).bind fun trs =>
      (nodesAt ["127.0.0.1:8080", "10.1.2.3:60069", "[2001::ffff:c0a8:ff]:65535"]).map fun nodes =>
        TorrentFile.toBytes ipText ⟨fileInfo, trs, nodes, 1686939764, "demagnetize vDEV".toList⟩) = some (
    key "d10:created by16:demagnetize vDEV13:creation datei1686939764e4:infod6:lengthi42e4:name8:bl" ++
    key "ob.dat12:piece lengthi65535e6:pieces20:00000000000000000000e5:nodesll9:127.0.0.1i8080eel8:" ++
    key "10.1.2.3i60069eel18:2001::ffff:c0a8:ffi65535eeee") := by decide +kernel
example : checkBencodeDict (
    key "d10:created by16:demagnetize vDEV13:creation datei1686939764e4:infod6:lengthi42e4:name8:bl" ++
    key "ob.dat12:piece lengthi65535e6:pieces20:00000000000000000000e5:nodesll9:127.0.0.1i8080eel8:" ++
    key "10.1.2.3i60069eel18:2001::ffff:c0a8:ffi65535eeee") = .ok () := by decide +kernel

/-- src/torrent.rs:522-534 `path_template::basic` -/
example : (PathTemplate.fromStr "Torrent-{name}-{hash}.torrent".toList).toOption.map (fun t => PathTemplate.format t "My Test Torrent".toList fileHash) =
    some "Torrent-My Test Torrent-ddbf90f0d41c8f91a555192279845bc45e530ec9.torrent".toList := by decide +kernel
/-- src/torrent.rs:536-548 `path_template::escaped_braces` -/
example : (PathTemplate.fromStr "Torrent-{{{name}}}-{hash}.torrent".toList).toOption.map (fun t => PathTemplate.format t "My Test Torrent".toList fileHash) =
    some "Torrent-{My Test Torrent}-ddbf90f0d41c8f91a555192279845bc45e530ec9.torrent".toList := by decide +kernel
/-- src/torrent.rs:550-560 `path_template::no_leading_or_trailing_literals` -/
example : (PathTemplate.fromStr "{name}-{hash}".toList).toOption.map (fun t => PathTemplate.format t "My Test Torrent".toList fileHash) =
    some "My Test Torrent-ddbf90f0d41c8f91a555192279845bc45e530ec9".toList := by decide +kernel
/-- src/torrent.rs:562-567 `path_template::unmatched` -/
example : PathTemplate.fromStr "torrent={name".toList = .error (.unmatched 8) := by decide +kernel
/-- src/torrent.rs:569-574 `path_template::nested_field` -/
example : PathTemplate.fromStr "{name{hash}torrent}".toList = .error (.invalidField 0) := by decide +kernel
/-- src/torrent.rs:576-581 `path_template::invalid_field` -/
example : PathTemplate.fromStr "torrent={name+hash}".toList = .error (.invalidField 8) := by decide +kernel
/-- src/torrent.rs:583-590 `path_template::unknown_field` -/
example : PathTemplate.fromStr "torrent={tracker}.torrent".toList = .error (.unknownField "tracker".toList) := by decide +kernel

end Demag.Tests
