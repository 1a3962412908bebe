import Verif.Model.TrackerHttp
import Verif.Model.Utf8
import Verif.Model.IpParse
import Verif.Model.Settings

/-!
# The unit tests of `/repo/src/tracker/http.rs`, run on the model

These are tests, not proofs of properties: they compare the model with the code on the inputs of the tests in `/repo`, which the code passes.
(The model does not tell the errors of bendy apart; where a test looks at the text of such an error, there is only an error here.)
-/

namespace Demag.Tests

open Demag

/-- `decode_bencode::<HttpAnnounceResponse>`, as a peer list or a failure. -/
def decodeAnswer (b : Bytes) : Option (Except Text AnnounceResponse) :=
  match decodeBencode bendyDefaultDepth (HttpAnnounceResponse.ofBen lossyUtf8 ipFromStr) b with
  | .ok (.success r) => some (.ok r)
  | .ok (.failure m) => some (.error m)
  | .error _ => none
/-- The addresses of peers, as text: `none` if one cannot be read. -/
def peersAt (l : List String) : Option (List Peer) := allSome (l.map fun s => Peer.fromStr s.toList)
/-- An answer with these peers. -/
def answerWith (interval : BitVec 32) (min complete incomplete : Option (BitVec 32)) (peers : List Peer) : Option (Except Text AnnounceResponse) :=
  some (.ok ⟨interval, peers, none, min, none, complete, incomplete, none, none⟩)

def response50 : Bytes :=
  key "d8:completei47e10:incompletei5e8:intervali1800e12:min inter" ++
    key "vali1800e5:peers300:w\x94bls\xdf\xd8\xb4C,\x1a\xe1\xba\x16" ++
    key "\xdf\xe8\x0f0\xc1(\r\xab\xc8\xd5\xb32\xe9\xec\x86~\xd4UX]A" ++
    key "\xf1-\x0e\xc30\xd6\xa1g\xd9\xe8z\xcbv\xbfe\xaen\xdc\xb41%/G" ++
    key "\xa1\xa7N\xc5i\x88A\xf1Bs\x93\xd1\x00\x01\x9a\x1d\x83\xb6" ++
    key "\xc8\xd5\xbc\xd18-N\\-[\x17\x85\xc8\xd5\xb9U\x96>ZIH\x15" ++
    key "\x11\x05\xebT\xc2%`S\x83\xb0\\V\x90\x04SY\xb3\xec\xac\x06" ++
    key "\xaa[Wns\x08.\xc9\xc8o\xe0\xf5\x94\xe8R\xaa\xe86\x1a\xe1" ++
    key "\x1b!nb\xc4\x85Mn\x83*\xa15\x17\x13\x8dp\xb3\xe9\xc1(\r\xa2" ++
    key "\xb3\x8c\xc3\xf6xC-\x15\xb9\x95Z\t\xc7I-\x0c\xdct\xc8\xd5E" ++
    key "\xaaM\xe3\x10\x9f\xd5\xf5\xb3;z\xed\xd9\x8a\xd5\x1d\xa1\x0b" ++
    key "\xd4f9K!\x9b\xb9\x99\xb3\x1b\xe6'gW\xd6\xdeu\xcfeXO\xc1\xc8" ++
    key "-\xd4:x<.\xa6\x18%a\x1a\xc8\xd5\xc1 \x7f\x98\xc8\xd5\xd9" ++
    key "\x8a\xc2^\xe0\x02m\xc9\x98\xa6\x00\x01\xb9\xba\xf9\t\x1a" ++
    key "\xe1\x86\x13\xbc[\xce\x9bD\xeb,G\xd9|.5\xfd\xf1\xd4\xf1\x1b" ++
    key "\"\x14I\xa4\xbe\xb0)\x1b\xedp\xcb\xac\xf1\xe0.I\x84m\xc9" ++
    key "\x98\xaf\x00\x01e"
/-- src/tracker/http.rs:236-325 `test_decode_response` -/
example : decodeAnswer response50 = (peersAt ["119.148.98.108:29663", "216.180.67.44:6881", "186.22.223.232:3888", "193.40.13.171:51413", "179.50.233.236:34430",
      "212.85.88.93:16881", "45.14.195.48:54945", "103.217.232.122:52086", "191.101.174.110:56500", "49.37.47.71:41383",
      "78.197.105.136:16881", "66.115.147.209:1", "154.29.131.182:51413", "188.209.56.45:20060", "45.91.23.133:51413",
      "185.85.150.62:23113", "72.21.17.5:60244", "194.37.96.83:33712", "92.86.144.4:21337", "179.236.172.6:43611",
      "87.110.115.8:11977", "200.111.224.245:38120", "82.170.232.54:6881", "27.33.110.98:50309", "77.110.131.42:41269",
      "23.19.141.112:46057", "193.40.13.162:45964", "195.246.120.67:11541", "185.149.90.9:51017", "45.12.220.116:51413",
      "69.170.77.227:4255", "213.245.179.59:31469", "217.138.213.29:41227", "212.102.57.75:8603", "185.153.179.27:58919",
      "103.87.214.222:30159", "101.88.79.193:51245", "212.58.120.60:11942", "24.37.97.26:51413", "193.32.127.152:51413",
      "217.138.194.94:57346", "109.201.152.166:1", "185.186.249.9:6881", "134.19.188.91:52891", "68.235.44.71:55676",
      "46.53.253.241:54513", "27.34.20.73:42174", "176.41.27.237:28875", "172.241.224.46:18820", "109.201.152.175:1"]).bind
    (answerWith 1800 (some 1800) (some 47) (some 5)) := by decide +kernel

/-- src/tracker/http.rs:327-355 `test_decode_response_with_peers6` -/
example : decodeAnswer (key "d8:intervali1800e5:peers6:iiiipp6:peers618:iiiiiiiiiiiiiiiippe") =
    (peersAt ["105.105.105.105:28784", "[6969:6969:6969:6969:6969:6969:6969:6969]:28784"]).bind (answerWith 1800 none none none) := by decide +kernel

/-- src/tracker/http.rs:357-369 `test_decode_response_bad_peers6` -/
example : (decodeBencode bendyDefaultDepth (HttpAnnounceResponse.ofBen lossyUtf8 ipFromStr)
      (key "d8:completei45e10:downloadedi8384e10:incompletei4e8:intervali900e12:min intervali300e6:pee" ++
    key "rs66:\x00\x00\x00\x00\x00\x0010:tracker id7:AniRenae")).toOption.isNone ∧
    (v6sFromCompact (key "\x00\x00\x00\x00\x00\x00")).toOption = none ∧
    v6FromCompact (key "\x00\x00\x00\x00\x00\x00") = .error ⟨"SocketAddrV6", 6⟩ := by decide +kernel

/-- src/tracker/http.rs:371-376 `test_decode_failure_response` -/
example : decodeAnswer (key "d14:failure reason14:too much stuffe") = some (.error "too much stuff".toList) := by decide +kernel

/-- A peer with an address and an ID. -/
def peerWith (a : String) (id : String) : Option Peer :=
  (Peer.fromStr a.toList).bind fun p => (PeerId.ofBytes (key id)).map fun i => { p with id := some i }
/-- src/tracker/http.rs:378-432 `test_decode_noncompact_response` -/
example : decodeAnswer (
    key "d8:completei431e10:incompletei14e8:intervali1800e5:peersld2:ip22:2001:41d0:1004:20b5::17:p" ++
    key "eer id20:-TR3000-23xhfykztwo84:porti51413eed2:ip18:2001:41d0:e:907::17:peer id20:-lt0D80-\xf8" ++
    key "\x01\x92N+!{\x06\xcc\x15\xf0\xc44:porti12179eed2:ip14:185.125.190.597:peer id20:T03I--00N4" ++
    key "b1YqQdAWh44:porti6892eed2:ip19:2403:5812:a03e::2227:peer id20:-TR3000-83e2ltycmh6c4:porti5" ++
    key "1413eed2:ip37:2003:f1:6f0f:dd00:c0ab:7cff:febd:274a7:peer id20:-TR3000-9e0zt0knchh44:porti" ++
    key "51413eeee") =
    (allSome [peerWith "[2001:41d0:1004:20b5::1]:51413" "-TR3000-23xhfykztwo8",
      peerWith "[2001:41d0:e:907::1]:12179" "-lt0D80-\xf8\x01\x92N+!{\x06\xcc\x15\xf0\xc4",
      peerWith "185.125.190.59:6892" "T03I--00N4b1YqQdAWh4",
      peerWith "[2403:5812:a03e::222]:51413" "-TR3000-83e2ltycmh6c",
      peerWith "[2003:f1:6f0f:dd00:c0ab:7cff:febd:274a]:51413" "-TR3000-9e0zt0knchh4"]).bind
    (answerWith 1800 none (some 431) (some 14)) := by decide +kernel

/-- src/tracker/http.rs:434-461 `test_decode_noncompact_response_no_peer_id` -/
example : decodeAnswer (
    key "d8:intervali900e5:peersld2:ip13:62.11.247.2494:porti8012eed2:ip13:185.148.1.1584:porti2481" ++
    key "0eed2:ip14:108.51.168.1554:porti51413eed2:ip14:207.179.235.144:porti49192eeee") =
    (peersAt ["62.11.247.249:8012", "185.148.1.158:24810", "108.51.168.155:51413", "207.179.235.14:49192"]).bind (answerWith 900 none none none) := by decide +kernel

/-- src/tracker/http.rs:463-514 `test_decode_response_with_crypto_flags` -/
example : decodeAnswer (
    key "d8:completei47e12:crypto_flags5:\x00\x01\x01\x00\x0110:in" ++
    key "completei5e8:intervali1800e12:min intervali1800e5:peers30" ++
    key ":w\x94bls\xdf\xd8\xb4C,\x1a\xe1\xba\x16\xdf\xe8\x0f0\xc1(" ++
    key "\r\xab\xc8\xd5\xb32\xe9\xec\x86~e") =
    (peersAt ["119.148.98.108:29663", "216.180.67.44:6881", "186.22.223.232:3888", "193.40.13.171:51413", "179.50.233.236:34430"]).bind fun l =>
    answerWith 1800 (some 1800) (some 47) (some 5) (l.zipWith (fun p f => { p with requiresCrypto := f }) [false, true, true, false, true]) := by decide +kernel

end Demag.Tests
